import Verif.Spec.BaseValue
import Verif.Props.DiffTensors
import Mathlib.Analysis.Calculus.Deriv.Shift
import Mathlib.Tactic.FieldSimp

/-!
# The tables of base functions hold the derivatives of the cell's base functions
-/

namespace DNDSR.Jet

open Matrix

variable {d : Nat}

instance : LawfulMonad Res := LawfulMonad.mk'
  (id_map := fun x => by cases x <;> rfl)
  (pure_bind := fun _ _ => rfl)
  (bind_assoc := fun x _ _ => by cases x <;> rfl)

theorem pd_translate (f : (Fin d → ℝ) → ℝ) (a : Fin d → ℝ) (i : Fin d) : pd i (fun y => f (y - a)) = fun x => pd i f (x - a) := by
  funext x
  unfold pd
  have e : ∀ t, Function.update x i t - a = Function.update (x - a) i (t - a i) := fun t => by
    funext k
    by_cases h : k = i
    · subst h; simp
    · simp [h]
  simp only [e]
  exact deriv_comp_sub_const (f := fun t => f (Function.update (x - a) i t)) (a i) (x i)

theorem pdL_translate (f : (Fin d → ℝ) → ℝ) (a : Fin d → ℝ) (L : List (Fin d)) : pdL L (fun y => f (y - a)) = fun x => pdL L f (x - a) := by
  induction L with
  | nil => rfl
  | cons i L ih => rw [pdL, ih]; exact pd_translate (pdL L f) a i

theorem pdL_sub_const (f : (Fin d → ℝ) → ℝ) (a : ℝ) {L : List (Fin d)} (h : L ≠ []) : pdL L (fun y => f y - a) = pdL L f := by
  induction L with
  | nil => exact absurd rfl h
  | cons i L ih =>
    by_cases hL : L = []
    · subst hL; exact pd_sub_const i f a
    · rw [pdL, ih hL, pdL]

theorem subMoment_jet {rows : List (List (Fin d))} {n : Nat} (h0 : rows.getD 0 [] = []) (h1 : ∀ r, 1 ≤ r → r < n → rows.getD r [] ≠ [])
    (C : CellBase) (flag : Int) {t : Nat → Nat → ℝ} {g : (Fin d → ℝ) → ℝ} {x : Fin d → ℝ} {j : Nat} (h : IsJet rows n g x fun r => t r j) :
    IsJet rows n (fun y => g y - if flag = 0 then C.moment j else 0) x fun r => subMoment C flag t r j := by
  intro r hr
  show (if flag = 0 ∧ r = 0 then t r j - C.moment j else t r j) = _
  by_cases hz : r = 0
  · subst hz
    have : t 0 j = _ := h 0 hr
    rw [h0] at this ⊢
    rw [this]
    by_cases hf : flag = 0
    · rw [if_pos ⟨hf, rfl⟩, pdL, if_pos hf, pdL]
    · rw [if_neg (by rintro ⟨a, -⟩; exact hf a), pdL, if_neg hf, pdL, sub_zero]
  · rw [if_neg (by rintro ⟨-, a⟩; exact hz a), pdL_sub_const _ _ (h1 r (by omega) hr)]
    exact h r hr

theorem eachColumn_spec (f : (Nat → ℝ) → Res (Nat → ℝ)) (cols : Nat) (t : Nat → Nat → ℝ) (g : Nat → Nat → ℝ)
    (h : ∀ j, j < cols → f (fun r => t r j) = .ok (g j)) :
    ∃ t', eachColumn f cols t = .ok t' ∧ (∀ j, j < cols → (fun r => t' r j) = g j) ∧ ∀ j, cols ≤ j → (fun r => t' r j) = fun r => t r j := by
  induction cols with
  | zero => exact ⟨t, rfl, fun j hj => by omega, fun _ _ => rfl⟩
  | succ m ih =>
    obtain ⟨t', h1, h2, h3⟩ := ih fun j hj => h j (by omega)
    refine ⟨fun r k => if k = m then g m r else t' r k, ?_, fun j hj => ?_, fun j hj => ?_⟩
    · have e : eachColumn f m t = .ok t' := h1
      unfold eachColumn at e ⊢
      rw [List.range_succ, List.foldlM_append, e]
      rw [Res.ok_bind, List.foldlM_cons, h3 m (Nat.le_refl _), h m (by omega)]
      rfl
    · by_cases hm : j = m
      · subst hm; simp
      · simp only [hm, if_false]; exact h2 j (by omega)
    · have : j ≠ m := by omega
      simp only [this, if_false]; exact h3 j (by omega)

theorem scale2_spec (C : CellBase) : IsScale C (by decide : 2 ≤ 3) (fun i => simpleScale2 C i.castSucc) := by
  unfold IsScale simpleScale2 CellBase.box
  refine ⟨fun h i => ?_, fun h i => ?_⟩
  · simp only [h, if_true]; rfl
  · simp only [h]
    generalize (if C.localOrientation = true then C.majorHBox else C.alignedHBox) = s
    have e : (if i.castSucc = 2 then s 2 else max (s 0) (s 1)) = max (s 0) (s 1) := if_neg (by revert i; decide)
    simp only [Bool.false_eq_true, if_false, e]
    constructor
    · rcases max_choice (s 0) (s 1) with h | h
      · exact ⟨0, h.symm⟩
      · exact ⟨1, h.symm⟩
    · rintro _ ⟨a, rfl⟩
      fin_cases a
      · exact le_max_left _ _
      · exact le_max_right _ _

theorem scale3_spec (C : CellBase) : IsScale C (Nat.le_refl 3) (simpleScale3 C) := by
  unfold IsScale simpleScale3 CellBase.box
  refine ⟨fun h i => ?_, fun h i => ?_⟩
  · simp only [h, if_true]; rfl
  · simp only [h]
    generalize (if C.localOrientation = true then C.majorHBox else C.alignedHBox) = s
    simp only [Bool.false_eq_true, if_false]
    constructor
    · rcases max_choice (max (s 0) (s 1)) (s 2) with h | h
      · rcases max_choice (s 0) (s 1) with h' | h'
        · exact ⟨0, by rw [h, h']; rfl⟩
        · exact ⟨1, by rw [h, h']; rfl⟩
      · exact ⟨2, h.symm⟩
    · rintro _ ⟨a, rfl⟩
      fin_cases a
      · exact (le_max_left _ _).trans (le_max_left _ _)
      · exact (le_max_right _ _).trans (le_max_left _ _)
      · exact le_max_right _ _

/-- **C64** (three dimensions) Column `j` of the table of base functions of a cell at a point holds the derivatives, in physical coordinates
and in the documented order, of the `j`-th monomial in the scaled local coordinates of the cell, less the stored moment if asked for. -/
theorem diffBaseValue3_jet (C : CellBase) (p : Fin 3 → ℝ) (flag : Int) {rows cols : Nat} (hr : rows ≤ 20) (hcs : cols ≤ 20)
    (hl : C.localOrientation = true → rows = 1 ∨ rows = 4 ∨ rows = 10 ∨ rows = 20) :
    ∃ s t, IsScale C (Nat.le_refl 3) s ∧ diffBaseValue3 C p flag rows cols = .ok t ∧ ∀ j, j < cols →
      IsJet rows3 rows (fun y => monomial s (rows3.getD j []) (C.local3 y) - if flag = 0 then C.moment j else 0) p fun r => t r j := by
  have hne : ∀ r, 1 ≤ r → r < rows → rows3.getD r [] ≠ [] := fun r h1 h2 =>
    (by decide : ∀ r : Fin 20, 1 ≤ r.val → rows3.getD r [] ≠ []) ⟨r, by omega⟩ h1
  refine ⟨simpleScale3 C, ?_⟩
  unfold diffBaseValue3
  by_cases ho : C.localOrientation = true
  · simp only [ho, if_true]
    let b : Fin 3 → ℝ := fun m => -∑ i, C.majorCoord i m * C.cent i
    have hloc : C.local3 = affine C.majorCoord b := by
      funext y m
      simp only [CellBase.local3, CellBase.axes, ho, if_true, affine, b, mul_sub, Finset.sum_sub_distrib]
      ring
    have hX : ∀ m, (C.majorCoordᵀ *ᵥ (p - C.cent)) m = affine C.majorCoord b p m := fun m => by
      rw [← hloc]
      simp only [CellBase.local3, CellBase.axes, ho, if_true, Matrix.mulVec, dotProduct, Matrix.transpose_apply, Pi.sub_apply]
    simp only [hX]
    have hj : ∀ j, j < cols → ∃ c', linMap3 C.majorCoord rows (fun r => fill3D (affine C.majorCoord b p 0 / simpleScale3 C 0)
        (affine C.majorCoord b p 1 / simpleScale3 C 1) (affine C.majorCoord b p 2 / simpleScale3 C 2) (simpleScale3 C 0) (simpleScale3 C 1)
        (simpleScale3 C 2) rows cols r j) = .ok c' ∧
        IsJet rows3 rows (fun y => monomial (simpleScale3 C) (rows3.getD j []) (affine C.majorCoord b y)) p c' := fun j hj =>
      (linMap3_jet C.majorCoord b p (smooth_monomial _ _) _ rows).1 (hl ho) (fill3D_jet (simpleScale3 C) (affine C.majorCoord b p) hr hcs hj)
    choose! g hg using hj
    obtain ⟨t, h1, h2, -⟩ := eachColumn_spec _ cols _ g fun j hj => (hg j hj).1
    refine ⟨subMoment C flag t, scale3_spec C, by rw [h1]; rfl, fun j hj => ?_⟩
    refine subMoment_jet rfl hne C flag (t := t) ?_
    rw [h2 j hj, hloc]
    exact (hg j hj).2
  · simp only [ho]
    refine ⟨_, scale3_spec C, rfl, fun j hj => subMoment_jet rfl hne C flag ?_⟩
    have hloc : C.local3 = fun y => y - C.cent := by
      funext y m
      simp [CellBase.local3, CellBase.axes, ho, Matrix.one_apply]
    rw [hloc]
    intro r hrr
    rw [pdL_translate (monomial (simpleScale3 C) (rows3.getD j []))]
    exact fill3D_jet (simpleScale3 C) (p - C.cent) hr hcs hj r hrr

/-- **C64** (two dimensions) The same for a point of the cell's plane. -/
theorem diffBaseValue2_jet (C : CellBase) (p : Fin 2 → ℝ) (flag : Int) {rows cols : Nat} (hr : rows ≤ 10) (hcs : cols ≤ 10)
    (hl : C.localOrientation = true → rows = 1 ∨ rows = 3 ∨ rows = 6 ∨ rows = 10) :
    ∃ s t, IsScale C (by decide : 2 ≤ 3) s ∧ diffBaseValue2 C ![p 0, p 1, C.cent 2] flag rows cols = .ok t ∧ ∀ j, j < cols →
      IsJet rows2 rows (fun y => monomial s (rows2.getD j []) (C.local2 y) - if flag = 0 then C.moment j else 0) p fun r => t r j := by
  have hne : ∀ r, 1 ≤ r → r < rows → rows2.getD r [] ≠ [] := fun r h1 h2 =>
    (by decide : ∀ r : Fin 10, 1 ≤ r.val → rows2.getD r [] ≠ []) ⟨r, by omega⟩ h1
  let s : Fin 2 → ℝ := fun i => simpleScale2 C i.castSucc
  have s0 : simpleScale2 C 0 = s 0 := rfl
  have s1 : simpleScale2 C 1 = s 1 := rfl
  refine ⟨s, ?_⟩
  unfold diffBaseValue2
  by_cases ho : C.localOrientation = true
  · simp only [ho, if_true]
    let D := Per.block C.majorCoord
    let b : Fin 2 → ℝ := fun m => -∑ i, D i m * C.cent i.castSucc
    have hloc : C.local2 = affine D b := by
      funext y m
      simp only [CellBase.local2, CellBase.axes, ho, if_true, affine, b, mul_sub, Finset.sum_sub_distrib, D, Per.block]
      ring
    have hX : ∀ m : Fin 2, (C.majorCoordᵀ *ᵥ (![p 0, p 1, C.cent 2] - C.cent)) m.castSucc = affine D b p m := fun m => by
      rw [← hloc]
      simp [CellBase.local2, CellBase.axes, ho, Matrix.mulVec, dotProduct, Fin.sum_univ_three]
    have h0 := hX 0
    have h1 := hX 1
    simp only [Fin.castSucc_zero, Fin.castSucc_one] at h0 h1
    simp only [h0, h1, s0, s1]
    have hj : ∀ j, j < cols → ∃ c', linMap2 C.majorCoord rows (fun r => fill2D (affine D b p 0 / s 0)
        (affine D b p 1 / s 1) ((C.majorCoordᵀ *ᵥ (![p 0, p 1, C.cent 2] - C.cent)) 2 / simpleScale2 C 2) (s 0) (s 1)
        (simpleScale2 C 2) rows cols r j) = .ok c' ∧
        IsJet rows2 rows (fun y => monomial s (rows2.getD j []) (affine D b y)) p c' := fun j hj =>
      (linMap2_jet C.majorCoord b p (smooth_monomial _ _) _ rows).1 (hl ho) (fill2D_jet s (affine D b p) _ _ hr hcs hj)
    choose! g hg using hj
    obtain ⟨t, h1, h2, -⟩ := eachColumn_spec _ cols _ g fun j hj => (hg j hj).1
    refine ⟨subMoment C flag t, scale2_spec C, by rw [h1]; rfl, fun j hj => ?_⟩
    refine subMoment_jet rfl hne C flag (t := t) ?_
    rw [h2 j hj, hloc]
    exact (hg j hj).2
  · simp only [ho]
    refine ⟨_, scale2_spec C, rfl, fun j hj => subMoment_jet rfl hne C flag ?_⟩
    let a : Fin 2 → ℝ := fun i => C.cent i.castSucc
    have hloc : C.local2 = fun y => y - a := by
      funext y m
      fin_cases m <;> simp [CellBase.local2, CellBase.axes, ho, Matrix.one_apply, a, Fin.sum_univ_two]
    rw [hloc]
    intro r hrr
    rw [pdL_translate (monomial s (rows2.getD j []))]
    exact fill2D_jet s (p - a) _ _ hr hcs hj r hrr

/-- Other numbers of rows abort in the local orientation, if there is a column at all. -/
theorem diffBaseValue_abort (C : CellBase) (p : Fin 3 → ℝ) (flag : Int) {rows cols : Nat} (ho : C.localOrientation = true) (hc : 0 < cols) :
    (¬(rows = 1 ∨ rows = 4 ∨ rows = 10 ∨ rows = 20) → diffBaseValue3 C p flag rows cols = .abort) ∧
    (¬(rows = 1 ∨ rows = 3 ∨ rows = 6 ∨ rows = 10) → diffBaseValue2 C p flag rows cols = .abort) := by
  obtain ⟨m, rfl⟩ : ∃ m, cols = m + 1 := ⟨cols - 1, by omega⟩
  have key : ∀ (f : (Nat → ℝ) → Res (Nat → ℝ)) t, (∀ c, f c = .abort) → eachColumn f (m + 1) t = .abort := fun f t h => by
    unfold eachColumn
    rw [List.range_succ_eq_map, List.foldlM_cons, h]
    rfl
  constructor
  · intro h
    unfold diffBaseValue3
    simp only [ho, if_true]
    rw [key _ _ fun c => (linMap3_jet C.majorCoord 0 0 (smooth_const 0) c rows).2 h]
    rfl
  · intro h
    unfold diffBaseValue2
    simp only [ho, if_true]
    rw [key _ _ fun c => (linMap2_jet C.majorCoord 0 0 (smooth_const 0) c rows).2 h]
    rfl

theorem integrate_eq (q : List QPoint) (f : QPoint → ℝ) (b : ℝ) :
    integrate q (fun g => .ok (f g)) b = .ok (b + (q.map fun g => f g * g.w).sum) := by
  induction q generalizing b with
  | nil => simp [integrate]
  | cons g q ih =>
    unfold integrate at ih ⊢
    rw [List.foldlM_cons]
    show (List.foldlM _ (b + f g * g.w) q : Res ℝ) = _
    rw [ih, List.map_cons, List.sum_cons, add_assoc]

/-- **C64** (zero mean) With the moments the solver computes and stores, the integral of every base function over the cell, by the same
quadrature, is the moment times the difference between the stored volume and the volume by that quadrature: zero when the two agree. -/
theorem baseMoment_mean (C : CellBase) (q : List QPoint) (vol : ℝ) (hv : vol ≠ 0) {cols : Nat} (hcs : cols ≤ 20)
    (hm : ∀ j, j < cols → baseMoment (fun p f => diffBaseValue3 C p f 1 cols) q vol j = .ok (C.moment j)) {j : Nat} (hj : j < cols) :
    integrate q (fun g => do
      let vv ← diffBaseValue3 C g.p 0 1 cols
      pure (vv 0 j * g.det)) 0 = .ok (C.moment j * (vol - (q.map fun g => g.det * g.w).sum)) := by
  have key : ∀ flag : Int, ∃ B : Per.V3 → ℝ, (∀ g : QPoint, (do
      let vv ← diffBaseValue3 C g.p flag 1 cols
      pure (vv 0 j * g.det) : Res ℝ) = .ok ((B g.p - if flag = 0 then C.moment j else 0) * g.det)) ∧
      ∀ p, B p = monomial (simpleScale3 C) (rows3.getD j []) (C.local3 p) := fun flag => by
    refine ⟨_, fun g => ?_, fun p => rfl⟩
    obtain ⟨s, t, hs, h1, h2⟩ := diffBaseValue3_jet C g.p flag (rows := 1) (by omega) hcs (fun _ => Or.inl rfl)
    have e : s = simpleScale3 C := by
      have h3 := scale3_spec C
      funext i
      cases ha : C.anisotropicLengths
      · exact IsGreatest.unique (hs.2 ha i) (h3.2 ha i)
      · rw [hs.1 ha, h3.1 ha]
    subst e
    rw [h1]
    show Res.ok (t 0 j * g.det) = _
    have e : t 0 j = _ := h2 j hj 0 (by omega)
    rw [e]
    rfl
  obtain ⟨B1, h1, e1⟩ := key 1
  obtain ⟨B0, h0, e0⟩ := key 0
  have hB : B1 = B0 := by funext p; rw [e1, e0]
  subst hB
  have hm' := hm j hj
  unfold baseMoment at hm'
  simp only [h1, integrate_eq] at hm'
  have hm'' : (0 + (q.map fun g => (B1 g.p - if (1 : Int) = 0 then C.moment j else 0) * g.det * g.w).sum) / vol = C.moment j := Res.ok.inj hm'
  simp only [h0, integrate_eq]
  congr 1
  simp only [if_true, zero_add]
  simp only [one_ne_zero, if_false, sub_zero, zero_add] at hm''
  have hmv : (q.map fun g => B1 g.p * g.det * g.w).sum = C.moment j * vol := by
    rw [← hm'']; field_simp
  have split : (q.map fun g => (B1 g.p - C.moment j) * g.det * g.w).sum =
      (q.map fun g => B1 g.p * g.det * g.w).sum - C.moment j * (q.map fun g => g.det * g.w).sum := by
    clear hmv hm'' hm' hm h0 h1
    induction q with
    | nil => simp
    | cons g q ih => simp only [List.map_cons, List.sum_cons, ih]; ring
  rw [split, hmv]
  ring

/-- A cell with local axes turned by a quarter: at the point (3, 5, 0) with centre (1, 1, 0) the local coordinates are (4, -2, 0). -/
example : ∃ C : CellBase, C.localOrientation = true ∧ C.local3 ![3, 5, 0] = ![4, -2, 0] := by
  refine ⟨⟨![1, 1, 0], ![2, 2, 1], ![2, 2, 1], !![0, -1, 0; 1, 0, 0; 0, 0, 1], fun _ => 0, true, false⟩, rfl, ?_⟩
  funext m
  fin_cases m <;> norm_num [CellBase.local3, CellBase.axes, Fin.sum_univ_three] <;> exact Or.inr (sub_self (0 : ℝ))

/-- A one-point quadrature of volume 8 at (3, 1, 0): the moment of the first base function, `x/2` about the centre, is 1. -/
example : baseMoment (fun p f => diffBaseValue3 ⟨![1, 1, 0], ![2, 2, 2], ![2, 2, 2], 1, fun _ => 0, false, true⟩ p f 1 4)
    [⟨8, 1, ![3, 1, 0]⟩] 8 1 = .ok 1 := by
  norm_num [baseMoment, integrate, diffBaseValue3, subMoment, fill3D, simpleScale3, fill3D_1_4, cell]

end DNDSR.Jet
