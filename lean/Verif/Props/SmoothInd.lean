import Verif.Proof.SmoothIndRank
import Verif.Props.LimProc

/-!
# C101: what the smoothness indicators measure
-/

namespace DNDSR.SmoothInd

open DNDSR.Rec DNDSR.Jet
open Matrix

variable {d N V : Nat} {S : Space} {Fr : Frame d} {W : Wrap} {m : Nat}

/-- All centres of faces are in the plane of the cells beside them. -/
abbrev InPlane (W : Wrap) (Fr : Frame d) (P : Prob N V) : Prop := ∀ i, i < P.G.length → ∀ f ∈ P.faces i, Sits W Fr (P.C i) f

/-- **C101** `DoCalculateSmoothIndicator` returns on all ranks. Each own cell gets the square of the order times the root of the largest, over the
variables it is told to look at, of: jumps of the value and derivatives on the faces relative to their means. On no distribution it is anything else. -/
theorem indicator_value (hd : Dim S Fr) (hm : m ≤ 3) (hN : N = S.rows m - 1) {see : List (Fin V)} (hv : see ≠ []) (P : Prob N V) (hp : InPlane W Fr P) :
    ∃ σ : Nat → ℝ, Gives (indicator (cell0 S W m see)) P σ ∧
      ∀ i, i < P.G.length → IsLargest m see (rough S W Fr m (P.C i) (P.faces i)) (σ i) := by
  obtain ⟨R, B⟩ := both_of hd
  have h : ∀ i, ∃ σ, i < P.G.length → (cell0 S W m see (P.C i) (P.faces i) = .ok σ ∧ IsLargest m see (rough S W Fr m (P.C i) (P.faces i)) σ) := fun i => by
    by_cases hi : i < P.G.length
    · obtain ⟨σ, h⟩ := cell0_spec B W hm hN hv (P.C i) (P.faces i) (hp i hi)
      exact ⟨σ, fun _ => h⟩
    · exact ⟨0, fun h => absurd h hi⟩
  choose σ hσ using h
  exact ⟨σ, indicator_gives _ P σ fun i hi => (hσ i hi).1, fun i hi => (hσ i hi).2⟩

/-- **C101** `DoCalculateSmoothIndicatorV1` likewise: it looks at the values only, after `post` has changed them, and gives the variables weights. -/
theorem indicator1_value (hd : Dim S Fr) (hm : m ≤ 3) (hN : N = S.rows m - 1) (hV : 0 < V) (wt : Fin V → ℝ) {post : (Fin V → ℝ) → Res (Fin V → ℝ)}
    {g : (Fin V → ℝ) → Fin V → ℝ} (hg : ∀ v, post v = .ok (g v)) (P : Prob N V) (hp : InPlane W Fr P) :
    ∃ σ : Nat → ℝ, Gives (indicator (cell1 S W m wt post)) P σ ∧
      ∀ i, i < P.G.length → IsLargest m (List.finRange V) (fun v => rough1 W Fr g (P.C i) (P.faces i) v * wt v) (σ i) := by
  obtain ⟨R, B⟩ := both_of hd
  have h : ∀ i, ∃ σ, i < P.G.length → (cell1 S W m wt post (P.C i) (P.faces i) = .ok σ ∧
      IsLargest m (List.finRange V) (fun v => rough1 W Fr g (P.C i) (P.faces i) v * wt v) σ) := fun i => by
    by_cases hi : i < P.G.length
    · obtain ⟨σ, h⟩ := cell1_spec B W hm hN hV wt hg (P.C i) (P.faces i) (hp i hi)
      exact ⟨σ, fun _ => h⟩
    · exact ⟨0, fun h => absurd h hi⟩
  choose σ hσ using h
  exact ⟨σ, indicator_gives _ P σ fun i hi => (hσ i hi).1, fun i hi => (hσ i hi).2⟩

/-! ## What follows -/

theorem sum_map_zero {α : Type} (l : List α) (f : α → ℝ) (h : ∀ a ∈ l, f a = 0) : (l.map f).sum = 0 :=
  List.sum_eq_zero fun x hx => by
    obtain ⟨a, ha, rfl⟩ := List.mem_map.1 hx
    exact h a ha

theorem sum_map_nonneg {α : Type} (l : List α) (f : α → ℝ) (h : ∀ a ∈ l, 0 ≤ f a) : 0 ≤ (l.map f).sum :=
  List.sum_nonneg fun x hx => by
    obtain ⟨a, ha, rfl⟩ := List.mem_map.1 hx
    exact h a ha

theorem sum_map_pos {α : Type} (l : List α) (f : α → ℝ) (h : ∀ a ∈ l, 0 ≤ f a) {a : α} (ha : a ∈ l) (hp : 0 < f a) : 0 < (l.map f).sum :=
  lt_of_lt_of_le hp (List.single_le_sum (fun x hx => by
    obtain ⟨b, hb, rfl⟩ := List.mem_map.1 hx
    exact h b hb) _ (List.mem_map_of_mem ha))

theorem size_nonneg {f : FaceIn N V} (h : Positive f) : 0 ≤ size f := mul_nonneg h.1 (List.sum_nonneg h.2)

theorem penalty_zero {F : FaceFn} {p : Fin d → ℝ} : facePenalty S Fr F m (fun _ => 0) p = 0 := by
  rw [← ip_self_eq, ip_const]; ring

theorem penalty_nonneg {F : FaceFn} {p : Fin d → ℝ} (f : (Fin d → ℝ) → ℝ) : 0 ≤ facePenalty S Fr F m f p := by
  rw [← ip_self_eq]; exact ip_nonneg f

theorem penalty_ge {F : FaceFn} {p : Fin d → ℝ} (f : (Fin d → ℝ) → ℝ) : F.weight 0 ^ 2 * f p ^ 2 ≤ facePenalty S Fr F m f p := by
  have e : ∀ T : Matrix (Fin d) (Fin d) ℝ, affine T p 0 = p := fun T => by funext a; simp [affine]
  have h : ∀ k (L : ℝ), 0 ≤ L ^ (2 * k) := fun k L => by rw [pow_mul]; positivity
  have hn : ∀ (L : ℝ) (f : (Fin d → ℝ) → ℝ) (p : Fin d → ℝ), F.weight 0 ^ 2 * f p ^ 2 ≤ penalty m F.weight L f p := fun L f p => by
    unfold penalty
    refine le_trans (le_of_eq ?_) (Finset.single_le_sum (f := fun k => F.weight k ^ 2 * L ^ (2 * k) * contract k f f p)
      (fun k _ => mul_nonneg (mul_nonneg (sq_nonneg _) (h _ _)) (contract_self _ _ _)) (Finset.mem_range.2 (Nat.succ_pos m)))
    simp only [contract]
    ring
  unfold facePenalty
  split
  · have := hn 1 (fun y => f (affine (Fr.block (coordTrans S F)) p y)) 0
    simp only [e] at this
    exact this
  · exact hn _ f p

theorem largest_nonneg {see : List (Fin V)} {ρ : Fin V → ℝ} {σ : ℝ} (h : IsLargest m see ρ σ) : 0 ≤ σ := by
  obtain ⟨v, _, rfl⟩ := h.1
  positivity

theorem largest_zero {see : List (Fin V)} {ρ : Fin V → ℝ} {σ : ℝ} (h : IsLargest m see ρ σ) (h0 : ∀ v ∈ see, ρ v = 0) : σ = 0 := by
  obtain ⟨v, hv, rfl⟩ := h.1
  rw [h0 v hv]
  simp

theorem largest_pos {see : List (Fin V)} {ρ : Fin V → ℝ} {σ : ℝ} (h : IsLargest m see ρ σ) (hm : 0 < m) {v : Fin V} (hv : v ∈ see) (h0 : 0 < ρ v) : 0 < σ := by
  refine lt_of_lt_of_le ?_ (h.2 ⟨v, hv, rfl⟩)
  have h1 : 0 < √|ρ v| := Real.sqrt_pos.2 (abs_pos.2 h0.ne')
  have h2 : (0 : ℝ) < m := by exact_mod_cast hm
  positivity

theorem rough_zero {C : CellIn N V} {fs : List (FaceIn N V)} {v : Fin V} (h : GoesOn Fr W C fs v) : rough S W Fr m C fs v = 0 := by
  unfold rough
  rw [sum_map_zero, zero_div]
  intro f hf
  have : jump Fr W C f v = fun _ => 0 := by
    funext z
    unfold jump
    cases ho : f.other with
    | none => rfl
    | some C' => simp only; rw [h f hf C' ho z]; ring
  rw [this, penalty_zero, mul_zero]

theorem rough_pos {C : CellIn N V} {fs : List (FaceIn N V)} {v : Fin V} (hp : ∀ f ∈ fs, Positive f) (h : JumpsAtFace Fr W (fun u => u v) C fs) :
    0 < rough S W Fr m C fs v := by
  obtain ⟨f, hf, C', ho, h1, h2, h3⟩ := h
  refine div_pos (sum_map_pos fs _ (fun f hf => mul_nonneg (size_nonneg (hp f hf)) (penalty_nonneg _)) hf (mul_pos h1 (lt_of_lt_of_le ?_ (penalty_ge _))))
    (add_pos_of_nonneg_of_pos (sum_map_nonneg fs _ fun f hf => mul_nonneg (size_nonneg (hp f hf)) (penalty_nonneg _)) (by positivity))
  have : jump Fr W C f v 0 ≠ 0 := by
    unfold jump
    rw [ho]
    have e : (fun u : Fin V → ℝ => u v) (at0 Fr W C f.data f.if2c) - (fun u : Fin V → ℝ => u v) (at0 Fr W C' f.data f.if2cOther) ≠ 0 := sub_ne_zero.2 h3
    simp only [at0] at e
    simp only [Pi.zero_apply, zero_add]
    exact div_ne_zero e two_ne_zero
  positivity

theorem rough1_zero {g : (Fin V → ℝ) → Fin V → ℝ} {C : CellIn N V} {fs : List (FaceIn N V)} {v : Fin V} (h : SameAtFaces Fr W (fun u => g u v) C fs) :
    rough1 W Fr g C fs v = 0 := by
  unfold rough1
  rw [sum_map_zero, zero_div]
  intro f hf
  cases ho : f.other with
  | none => rfl
  | some C' =>
      have := h f hf C' ho
      simp only at this ⊢
      rw [this]; ring

theorem rough1_pos {g : (Fin V → ℝ) → Fin V → ℝ} {C : CellIn N V} {fs : List (FaceIn N V)} {v : Fin V} (hp : ∀ f ∈ fs, Positive f)
    (h : JumpsAtFace Fr W (fun u => g u v) C fs) : 0 < rough1 W Fr g C fs v := by
  obtain ⟨f, hf, C', ho, h1, h2, h3⟩ := h
  unfold rough1
  refine div_pos (sum_map_pos fs _ (fun f hf => ?_) hf ?_) (add_pos_of_nonneg_of_pos (sum_map_nonneg fs _ fun f hf => ?_) (by positivity))
  · have := size_nonneg (hp f hf)
    cases f.other with
    | none => exact le_rfl
    | some C' => simp only; positivity
  · rw [ho]
    have : (g (at0 Fr W C f.data f.if2c) v - g (at0 Fr W C' f.data f.if2cOther) v) / 2 ≠ 0 := div_ne_zero (sub_ne_zero.2 h3) two_ne_zero
    simp only
    positivity
  · have := size_nonneg (hp f hf)
    cases f.other with
    | none => exact le_rfl
    | some C' => simp only; positivity

/-- **C101** The indicator is not negative, and zero in a cell through whose faces the variables go on. Where the value of one of them jumps at a
face, it is positive. -/
theorem indicator_sees (hd : Dim S Fr) (hm : m ≤ 3) (hN : N = S.rows m - 1) {see : List (Fin V)} (hv : see ≠ []) (P : Prob N V) (hp : InPlane W Fr P) :
    ∃ σ : Nat → ℝ, Gives (indicator (cell0 S W m see)) P σ ∧ ∀ i, i < P.G.length → 0 ≤ σ i ∧
      ((∀ v ∈ see, GoesOn Fr W (P.C i) (P.faces i) v) → σ i = 0) ∧
      (0 < m → (∀ f ∈ P.faces i, Positive f) → (∃ v ∈ see, JumpsAtFace Fr W (fun u => u v) (P.C i) (P.faces i)) → 0 < σ i) := by
  obtain ⟨σ, h1, h2⟩ := indicator_value hd hm hN hv P hp
  refine ⟨σ, h1, fun i hi => ⟨largest_nonneg (h2 i hi), fun h => largest_zero (h2 i hi) fun v hv => rough_zero (h v hv), fun h0 hp ⟨v, hv, hj⟩ =>
    largest_pos (h2 i hi) h0 hv (rough_pos hp hj)⟩⟩

/-- the conversion the Euler solver hands over returns for every state -/
theorem pressurePost_total (d e : Nat) (gamma : ℝ) (v : Fin (d + 2 + e) → ℝ) : pressurePost d e gamma v = .ok fun _ => pressure d e gamma v := by
  have hs : (0 : ℝ) < 1 / 10 ^ 200 := by positivity
  unfold pressurePost pressure
  rw [verySmall_eq]
  by_cases h : v ⟨0, by omega⟩ < 1 / 10 ^ 200
  · rw [if_pos h, if_pos h]
  · rw [if_neg h, if_neg h]
    have h0 : 0 < v ⟨0, by omega⟩ := lt_of_lt_of_le hs (not_lt.1 h)
    unfold Gas.cons2prim
    have h1 : (0 : ℝ) < Gas.St.c0 ((v ⟨0, by omega⟩, fun i => v ⟨i.1 + 1, by omega⟩, v ⟨d + 1, by omega⟩) : Gas.St ℝ d) := h0
    rw [if_pos h1, Res.ok_bind]
    refine congrArg Res.ok (funext fun _ => ?_)
    show (gamma - 1) * (v ⟨d + 1, by omega⟩ - v ⟨0, by omega⟩ * (1 / 2) * ∑ i : Fin d, ((v ⟨0, by omega⟩)⁻¹ * v ⟨i.1 + 1, by omega⟩) * ((v ⟨0, by omega⟩)⁻¹ * v ⟨i.1 + 1, by omega⟩)) = _
    congr 2
    rw [Finset.mul_sum, Finset.sum_div]
    refine Finset.sum_congr rfl fun i _ => ?_
    have := h0.ne'
    field_simp

/-- **C101** With the Euler solver's conversion the second indicator looks at the pressure only: zero where it is the same on both sides of all faces,
whatever density and velocity do (a contact discontinuity is not seen), and positive where it jumps at a face. -/
theorem indicator1_pressure {d' e : Nat} {gamma : ℝ} (hd : Dim S Fr) (hm : m ≤ 3) (hN : N = S.rows m - 1) (wt : Fin (d' + 2 + e) → ℝ)
    (P : Prob N (d' + 2 + e)) (hp : InPlane W Fr P) :
    ∃ σ : Nat → ℝ, Gives (indicator (cell1 S W m wt (pressurePost d' e gamma))) P σ ∧ ∀ i, i < P.G.length → 0 ≤ σ i ∧
      (SameAtFaces Fr W (pressure d' e gamma) (P.C i) (P.faces i) → σ i = 0) ∧
      (0 < m → (∀ f ∈ P.faces i, Positive f) → (∃ v, 0 < wt v) → JumpsAtFace Fr W (pressure d' e gamma) (P.C i) (P.faces i) → 0 < σ i) := by
  obtain ⟨σ, h1, h2⟩ := indicator1_value hd hm hN (by omega) wt (pressurePost_total d' e gamma) P hp
  refine ⟨σ, h1, fun i hi => ⟨largest_nonneg (h2 i hi), fun h => largest_zero (h2 i hi) fun v _ => ?_, fun h0 hp ⟨v, hw⟩ hj => ?_⟩⟩
  · show rough1 W Fr (fun u _ => pressure d' e gamma u) (P.C i) (P.faces i) v * wt v = 0
    rw [rough1_zero h, zero_mul]
  · exact largest_pos (h2 i hi) h0 (List.mem_finRange v) (mul_pos (rough1_pos hp hj) hw)

/-- **C101** Together with the limiter (C99): a cell through whose faces the variables go on keeps its coefficients exactly, unless the limiter is told
to treat all cells. `Q` is the mesh as the limiter sees it, with the indicator's results. -/
theorem smooth_kept (hd : Dim S Fr) (hm : m ≤ 3) (hN : N = S.rows m - 1) {see : List (Fin V)} (hv : see ≠ []) (P : Prob N V) (hp : InPlane W Fr P)
    {c : LimProc.Ctl} (hg : LimProc.Good c N) (ht : 0 < c.threshold) (E : LimProc.Eig V) :
    ∃ σ : Nat → ℝ, Gives (indicator (cell0 S W m see)) P σ ∧ ∀ Q : LimProc.Prob N V, Q.si = σ →
      ∃ Y : Nat → Matrix (Fin N) (Fin V) ℝ, LimProc.Gives (fun gc put => LimProc.limiterC gc c E false put) Q (fun i => (P.C i).x) Y ∧
        ∀ i, i < P.G.length → (∀ v ∈ see, GoesOn Fr W (P.C i) (P.faces i) v) → Y i = (P.C i).x := by
  obtain ⟨σ, h1, h2⟩ := indicator_sees hd hm hN hv P hp
  refine ⟨σ, h1, fun Q hQ => ?_⟩
  obtain ⟨Y, y1, y2, -⟩ := LimProc.limiterC_same hg E false Q fun i => (P.C i).x
  refine ⟨Y, y1, fun i hi h => y2 i ?_⟩
  unfold LimProc.Prob.Limited
  rw [hQ, (h2 i hi).2.1 h]
  rintro (h | h)
  · cases h
  · exact absurd h (not_le.2 ht)

end DNDSR.SmoothInd
