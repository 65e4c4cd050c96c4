import Verif.Proof.ReconMin

namespace DNDSR.Rec

open Matrix Jet

theorem isScale_unique {k : Nat} {C : CellBase} {hk : k ≤ 3} {s s' : Fin k → ℝ} (h : IsScale C hk s) (h' : IsScale C hk s') : s = s' := by
  funext i
  cases ha : C.anisotropicLengths with
  | true => rw [h.1 ha i, h'.1 ha i]
  | false => exact (h.2 ha i).unique (h'.2 ha i)

theorem norm_congr3 {c c' e e' : Nat → ℝ} {k : Nat} (hk : k ≤ 3) (h : ∀ r, r < space3.rows k → c r = e r ∧ c' r = e' r) :
    orderNorm space3 k c c' = orderNorm space3 k e e' := by
  match k, hk with
  | 0, _ =>
    exact Finset.sum_congr rfl fun r _ => by
      have := h (0 + r) (by have := r.isLt; show _ < 1; omega)
      show c (0 + r) * c' (0 + r) * _ = e (0 + r) * e' (0 + r) * _
      rw [this.1, this.2]
  | 1, _ =>
    exact Finset.sum_congr rfl fun r _ => by
      have := h (1 + r) (by have := r.isLt; show _ < 4; omega)
      show c (1 + r) * c' (1 + r) * _ = e (1 + r) * e' (1 + r) * _
      rw [this.1, this.2]
  | 2, _ =>
    exact Finset.sum_congr rfl fun r _ => by
      have := h (4 + r) (by have := r.isLt; show _ < 10; omega)
      show c (4 + r) * c' (4 + r) * _ = e (4 + r) * e' (4 + r) * _
      rw [this.1, this.2]
  | 3, _ =>
    exact Finset.sum_congr rfl fun r _ => by
      have := h (10 + r) (by have := r.isLt; show _ < 20; omega)
      show c (10 + r) * c' (10 + r) * _ = e (10 + r) * e' (10 + r) * _
      rw [this.1, this.2]

theorem norm_congr2 {c c' e e' : Nat → ℝ} {k : Nat} (hk : k ≤ 3) (h : ∀ r, r < space2.rows k → c r = e r ∧ c' r = e' r) :
    orderNorm space2 k c c' = orderNorm space2 k e e' := by
  match k, hk with
  | 0, _ =>
    exact Finset.sum_congr rfl fun r _ => by
      have := h (0 + r) (by have := r.isLt; show _ < 1; omega)
      show c (0 + r) * c' (0 + r) * _ = e (0 + r) * e' (0 + r) * _
      rw [this.1, this.2]
  | 1, _ =>
    exact Finset.sum_congr rfl fun r _ => by
      have := h (1 + r) (by have := r.isLt; show _ < 3; omega)
      show c (1 + r) * c' (1 + r) * _ = e (1 + r) * e' (1 + r) * _
      rw [this.1, this.2]
  | 2, _ =>
    exact Finset.sum_congr rfl fun r _ => by
      have := h (3 + r) (by have := r.isLt; show _ < 6; omega)
      show c (3 + r) * c' (3 + r) * _ = e (3 + r) * e' (3 + r) * _
      rw [this.1, this.2]
  | 3, _ =>
    exact Finset.sum_congr rfl fun r _ => by
      have := h (6 + r) (by have := r.isLt; show _ < 10; omega)
      show c (6 + r) * c' (6 + r) * _ = e (6 + r) * e' (6 + r) * _
      rw [this.1, this.2]

theorem rows3_of {m : Nat} (hm : m ≤ 3) : space3.rows m = 1 ∨ space3.rows m = 4 ∨ space3.rows m = 10 ∨ space3.rows m = 20 := by
  match m, hm with
  | 0, _ => exact .inl rfl
  | 1, _ => exact .inr (.inl rfl)
  | 2, _ => exact .inr (.inr (.inl rfl))
  | 3, _ => exact .inr (.inr (.inr rfl))

theorem rows2_of {m : Nat} (hm : m ≤ 3) : space2.rows m = 1 ∨ space2.rows m = 3 ∨ space2.rows m = 6 ∨ space2.rows m = 10 := by
  match m, hm with
  | 0, _ => exact .inl rfl
  | 1, _ => exact .inr (.inl rfl)
  | 2, _ => exact .inr (.inr (.inl rfl))
  | 3, _ => exact .inr (.inr (.inr rfl))

theorem rows_mono3 {k m : Nat} (h : k ≤ m) (hm : m ≤ 3) : space3.rows k ≤ space3.rows m := by
  have : ∀ m : Fin 4, ∀ k : Fin 4, k ≤ m → [1, 4, 10, 20].getD k.val 0 ≤ [1, 4, 10, 20].getD m.val 0 := by decide
  exact this ⟨m, by omega⟩ ⟨k, by omega⟩ h

theorem rows_mono2 {k m : Nat} (h : k ≤ m) (hm : m ≤ 3) : space2.rows k ≤ space2.rows m := by
  have : ∀ m : Fin 4, ∀ k : Fin 4, k ≤ m → [1, 3, 6, 10].getD k.val 0 ≤ [1, 3, 6, 10].getD m.val 0 := by decide
  exact this ⟨m, by omega⟩ ⟨k, by omega⟩ h

theorem local3_affine (C : CellBase) : ∃ b, C.local3 = affine C.axes b :=
  ⟨fun m => -∑ i, C.axes i m * C.cent i, by
    funext y m
    simp only [CellBase.local3, affine, mul_sub, Finset.sum_sub_distrib]
    ring⟩

theorem local2_affine (C : CellBase) : ∃ b, C.local2 = affine (Per.block C.axes) b :=
  ⟨fun m => -∑ i : Fin 2, C.axes i.castSucc m.castSucc * C.cent i.castSucc, by
    funext y m
    simp only [CellBase.local2, affine, Per.block, mul_sub, Finset.sum_sub_distrib]
    ring⟩

theorem laws3 : Laws space3 frame3 rows3 where
  row0 := rfl
  r0 := rfl
  r1 := by decide
  r2 := by decide
  r3 := by decide
  smooth := fun C j => by
    obtain ⟨b, e⟩ := local3_affine C
    show Smooth fun y => monomial (simpleScale3 C) (rows3.getD (j + 1) []) (C.local3 y) - C.moment (j + 1)
    rw [e]
    exact ContDiff.sub ((smooth_monomial (simpleScale3 C) (rows3.getD (j + 1) [])).comp (affine_smooth _ b)) contDiff_const
  base := fun C p m k hm hk _ => by
    have hm' := rows3_of hm
    have hk' := rows3_of hk
    obtain ⟨s, t, h1, h2, h3⟩ := diffBaseValue3_jet C p 0 (rows := space3.rows m) (cols := space3.rows k) (by omega) (by omega) fun _ => hm'
    have e : s = simpleScale3 C := isScale_unique h1 (scale3_spec C)
    subst e
    exact ⟨t, h2, fun j hj => h3 (j + 1) hj⟩
  lin := fun D b x u c m hm hu h => (linMap3_jet D b x hu c _).1 (rows3_of hm) h
  norm := fun f g x c c' k m hk hm hf hg hc hc' => by
    let e : Nat → ℝ := fun r => if r < space3.rows m then c r else pdL (rows3.getD r []) f x
    let e' : Nat → ℝ := fun r => if r < space3.rows m then c' r else pdL (rows3.getD r []) g x
    have he : IsJet rows3 20 f x e := fun r _ => by
      show (if r < space3.rows m then c r else pdL (rows3.getD r []) f x) = _
      split
      · exact hc r ‹_›
      · rfl
    have he' : IsJet rows3 20 g x e' := fun r _ => by
      show (if r < space3.rows m then c' r else pdL (rows3.getD r []) g x) = _
      split
      · exact hc' r ‹_›
      · rfl
    rw [norm_congr3 (e := e) (e' := e') (hk.trans hm) fun r hr => by
      have hr' := lt_of_lt_of_le hr (rows_mono3 hk hm)
      exact ⟨(if_pos hr').symm, (if_pos hr').symm⟩]
    obtain ⟨n0, n1, n2, n3⟩ := normSym3_jet hf hg he he'
    unfold orderNorm
    match k, hk.trans hm with
    | 0, _ =>
      have : space3.norm 0 1 (fun r => e (space3.low 0 + r)) (fun r => e' (space3.low 0 + r)) = .ok (f x * g x) := by
        have z : ∀ h : Nat → ℝ, (fun r => h (space3.low 0 + r)) = h := fun h => by funext r; show h (0 + r) = h r; rw [Nat.zero_add]
        rw [z, z]; exact n0
      rw [this]; rfl
    | 1, _ =>
      have : space3.norm 1 1 (fun r => e (space3.low 1 + r)) (fun r => e' (space3.low 1 + r)) = _ := n1
      rw [this]; rfl
    | 2, _ =>
      have : space3.norm 2 1 (fun r => e (space3.low 2 + r)) (fun r => e' (space3.low 2 + r)) = _ := n2
      rw [this]; rfl
    | 3, _ =>
      have : space3.norm 3 1 (fun r => e (space3.low 3 + r)) (fun r => e' (space3.low 3 + r)) = _ := n3
      rw [this]; rfl
  proj_lift := fun _ => rfl
  keeps_t := fun _ _ => trivial
  affine_proj := fun _ _ _ _ => rfl

theorem laws2 : Laws space2 frame2 rows2 where
  row0 := rfl
  r0 := rfl
  r1 := by decide
  r2 := by decide
  r3 := by decide
  smooth := fun C j => by
    obtain ⟨b, e⟩ := local2_affine C
    show Smooth fun y => monomial (fun i => simpleScale2 C i.castSucc) (rows2.getD (j + 1) []) (C.local2 y) - C.moment (j + 1)
    rw [e]
    exact ContDiff.sub ((smooth_monomial (fun i : Fin 2 => simpleScale2 C i.castSucc) (rows2.getD (j + 1) [])).comp (affine_smooth _ b)) contDiff_const
  base := fun C p m k hm hk hp => by
    have hm' := rows2_of hm
    have hk' := rows2_of hk
    obtain ⟨s, t, h1, h2, h3⟩ := diffBaseValue2_jet C ![p 0, p 1] 0 (rows := space2.rows m) (cols := space2.rows k) (by omega) (by omega) fun _ => hm'
    have e : s = fun i => simpleScale2 C i.castSucc := isScale_unique h1 (scale2_spec C)
    subst e
    refine ⟨t, ?_, fun j hj => h3 (j + 1) hj⟩
    have ep : p = ![(![p 0, p 1] : Fin 2 → ℝ) 0, (![p 0, p 1] : Fin 2 → ℝ) 1, C.cent 2] := by
      funext i
      match i with
      | 0 => rfl
      | 1 => rfl
      | 2 => exact hp
    show diffBaseValue2 C p 0 _ _ = _
    rw [ep]
    exact h2
  lin := fun D b x u c m hm hu h => (linMap2_jet D b x hu c _).1 (rows2_of hm) h
  norm := fun f g x c c' k m hk hm hf hg hc hc' => by
    let e : Nat → ℝ := fun r => if r < space2.rows m then c r else pdL (rows2.getD r []) f x
    let e' : Nat → ℝ := fun r => if r < space2.rows m then c' r else pdL (rows2.getD r []) g x
    have he : IsJet rows2 10 f x e := fun r _ => by
      show (if r < space2.rows m then c r else pdL (rows2.getD r []) f x) = _
      split
      · exact hc r ‹_›
      · rfl
    have he' : IsJet rows2 10 g x e' := fun r _ => by
      show (if r < space2.rows m then c' r else pdL (rows2.getD r []) g x) = _
      split
      · exact hc' r ‹_›
      · rfl
    rw [norm_congr2 (e := e) (e' := e') (hk.trans hm) fun r hr => by
      have hr' := lt_of_lt_of_le hr (rows_mono2 hk hm)
      exact ⟨(if_pos hr').symm, (if_pos hr').symm⟩]
    obtain ⟨n0, n1, n2, n3⟩ := normSym2_jet hf hg he he'
    unfold orderNorm
    match k, hk.trans hm with
    | 0, _ =>
      have : space2.norm 0 1 (fun r => e (space2.low 0 + r)) (fun r => e' (space2.low 0 + r)) = .ok (f x * g x) := by
        have z : ∀ h : Nat → ℝ, (fun r => h (space2.low 0 + r)) = h := fun h => by funext r; show h (0 + r) = h r; rw [Nat.zero_add]
        rw [z, z]; exact n0
      rw [this]; rfl
    | 1, _ =>
      have : space2.norm 1 1 (fun r => e (space2.low 1 + r)) (fun r => e' (space2.low 1 + r)) = _ := n1
      rw [this]; rfl
    | 2, _ =>
      have : space2.norm 2 1 (fun r => e (space2.low 2 + r)) (fun r => e' (space2.low 2 + r)) = _ := n2
      rw [this]; rfl
    | 3, _ =>
      have : space2.norm 3 1 (fun r => e (space2.low 3 + r)) (fun r => e' (space2.low 3 + r)) = _ := n3
      rw [this]; rfl
  proj_lift := fun y => by
    funext i
    match i with
    | 0 => rfl
    | 1 => rfl
  keeps_t := fun M h a => ⟨(h a).2, (h a).1⟩
  affine_proj := fun M hk b p => by
    have h0 := (hk 0).1
    have h1 := (hk 1).1
    simp only [Fin.castSucc_zero, Fin.castSucc_one] at h0 h1
    funext i
    match i with
    | 0 =>
      show (∑ a, M a 0 * p a) + b 0 = (∑ a : Fin 2, M a.castSucc 0 * (![p 0, p 1] : Fin 2 → ℝ) a) + b 0
      simp [Fin.sum_univ_three, h0]
    | 1 =>
      show (∑ a, M a 1 * p a) + b 1 = (∑ a : Fin 2, M a.castSucc 1 * (![p 0, p 1] : Fin 2 → ℝ) a) + b 1
      simp [Fin.sum_univ_three, h1]

end DNDSR.Rec
