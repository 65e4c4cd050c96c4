import Verif.Model.Positivity
import Verif.Spec.Positivity
import Verif.Props.GasRatio

/-!
# Lemmas on the limiters of density and pressure
-/

namespace DNDSR.Pos

open DNDSR.Gas

variable {d N : Nat}

theorem eInt_eq (U : St ℝ d) : eInt U = internal U := by
  simp only [eInt, internal, St.c0, St.cv, St.c4, dotProduct]
  have : (2 * U.1)⁻¹ = U.1⁻¹ * (1 / 2) := by rw [mul_inv]; ring
  rw [div_eq_mul_inv _ (2 * U.1), this]
  ring

theorem internalG_zero (U : St ℝ d) : internalG 0 U = internal U := by simp only [internalG, internal, add_zero]

theorem internal_le_guard (U : St ℝ d) (h : 0 < U.1) : internal U ≤ internalG verySmall U := by
  have hv := verySmall_pos
  simp only [internal, internalG]
  have hs : 0 ≤ ∑ i, U.2.1 i * U.2.1 i := Finset.sum_nonneg fun i _ => mul_self_nonneg _
  have := div_le_div_of_nonneg_left hs (by linarith : 0 < 2 * U.1) (by linarith : 2 * U.1 ≤ 2 * (U.1 + verySmall))
  linarith

/-- on a segment between two states the internal energy is not below a floor of both -/
theorem internal_between (u inc : St ℝ d) {f s t : ℝ} (hr : 0 < u.1) (hs : 0 < (u + s • inc).1) (h0 : 0 ≤ t) (h1 : t ≤ s) (hu : f ≤ internal u)
    (hi : f ≤ internal (u + s • inc)) : f ≤ internal (u + t • inc) := by
  rcases (h0.trans h1).lt_or_eq with hp | hp
  · have e : t • inc = (t / s) • (s • inc) := by rw [smul_smul, div_mul_cancel₀ _ hp.ne']
    have q0 : 0 ≤ t / s := div_nonneg h0 hp.le
    have q1 : t / s ≤ 1 := (div_le_one hp).mpr h1
    have := internalG_concave (eps := 0) u (s • inc) (by simpa using hr) (by simpa using hs) q0 q1
    rw [internalG_zero, internalG_zero, internalG_zero, ← e] at this
    nlinarith [mul_le_mul_of_nonneg_left hu (sub_nonneg.mpr q1), mul_le_mul_of_nonneg_left hi q0]
  · have : t = 0 := le_antisymm (hp ▸ h1) h0
    rw [this, zero_smul, add_zero]
    exact hu

theorem dens_between {r i e s t : ℝ} (h0 : 0 ≤ t) (h1 : t ≤ s) (hr : e ≤ r) (hi : e ≤ r + s * i) : e ≤ r + t * i := by
  rcases le_total 0 i with h | h
  · nlinarith [mul_nonneg h0 h]
  · nlinarith [mul_le_mul_of_nonpos_right h1 h]

/-! ## Making room -/

theorem room_le {eps : ℝ} : ∀ (ps : List (ℝ × ℝ)) (theta : ℝ), room eps theta ps ≤ theta
  | [], theta => le_rfl
  | p :: ps, theta => by
    simp only [room]
    refine (room_le ps _).trans ?_
    split
    · exact min_le_left _ _
    · exact le_rfl

theorem room_spec {eps : ℝ} : ∀ (ps : List (ℝ × ℝ)) (theta : ℝ), 0 ≤ theta → (∀ p ∈ ps, eps ≤ p.1) →
    0 ≤ room eps theta ps ∧ ∀ p ∈ ps, eps ≤ p.1 + room eps theta ps * p.2
  | [], theta, h0, _ => ⟨h0, by simp⟩
  | p :: ps, theta, h0, h => by
    have hp := h p (by simp)
    have hv := verySmall_pos
    simp only [room]
    set th := if p.2 < 0 then min theta ((p.1 - eps) / (-p.2 + verySmall)) else theta with hth
    have hth0 : 0 ≤ th := by
      rw [hth]
      split
      · exact le_min h0 (div_nonneg (by linarith) (by linarith))
      · exact h0
    obtain ⟨a, b⟩ := room_spec ps th hth0 fun q hq => h q (by simp [hq])
    refine ⟨a, fun q hq => ?_⟩
    rcases List.mem_cons.mp hq with rfl | hq
    · have hle := room_le (eps := eps) ps th
      by_cases hn : q.2 < 0
      · have h1 : th ≤ (q.1 - eps) / (-q.2 + verySmall) := by rw [hth, if_pos hn]; exact min_le_right _ _
        have h2 := hle.trans h1
        rw [le_div_iff₀ (by linarith)] at h2
        nlinarith [mul_nonneg a hv.le]
      · nlinarith [mul_nonneg a (not_lt.mp hn)]
    · exact b q hq

theorem roomIf_le {eps theta : ℝ} (ps : List (ℝ × ℝ)) : roomIf eps theta ps ≤ theta := by
  unfold roomIf
  split
  · exact room_le ps theta
  · exact le_rfl

theorem roomIf_spec {eps theta : ℝ} (ps : List (ℝ × ℝ)) (h0 : 0 ≤ theta) (h1 : theta ≤ 1) (h : ∀ p ∈ ps, eps ≤ p.1) :
    0 ≤ roomIf eps theta ps ∧ ∀ p ∈ ps, ∀ t, 0 ≤ t → t ≤ roomIf eps theta ps → eps ≤ p.1 + t * p.2 := by
  unfold roomIf
  split
  · obtain ⟨a, b⟩ := room_spec ps theta h0 h
    exact ⟨a, fun p hp t ht hle => dens_between ht hle (h p hp) (b p hp)⟩
  · rename_i hn
    refine ⟨h0, fun p hp t ht hle => dens_between ht (hle.trans h1) (h p hp) ?_⟩
    have : ¬ p.2 + p.1 < eps := fun hc => hn ⟨p, hp, hc⟩
    linarith [not_lt.mp this]

/-! ## Truncation -/

section Cut

variable {V : Type} [Zero V]

theorem cut_zero (dim : Nat) (x : Fin N → V) : cut dim 0 x = fun _ => 0 := by
  funext j
  simp [cut]

theorem choose_mono (dim : Nat) {p q : Nat} (h : p ≤ q) : (p + dim).choose dim ≤ (q + dim).choose dim :=
  Nat.choose_le_choose dim (by omega)

theorem cut_cut (dim : Nat) {p q : Nat} (h : p ≤ q) (x : Fin N → V) : cut dim p (cut dim q x) = cut dim p x := by
  funext j
  simp only [cut]
  have := choose_mono dim h
  by_cases hp : (j : Nat) + 1 < (p + dim).choose dim
  · rw [if_pos hp, if_pos (by omega), if_pos hp]
  · rw [if_neg hp, if_neg hp]

theorem cut_all (dim p : Nat) (hN : N + 1 = (p + dim).choose dim) (x : Fin N → V) : cut dim p x = x := by
  funext j
  have := j.isLt
  simp only [cut]
  rw [if_pos (by omega)]

end Cut

theorem downCast_eq (hd : d = 2 ∨ d = 3) {o : Nat} (ho : o < 3) (x : Fin N → TU d) : downCast d (o + 1) x = .ok (cut d o x) := by
  have key : ∀ (k m : Nat), m = k + 1 → (fun j : Fin N => if k ≤ (j : Nat) then (0 : ℝ) • x j else x j) = fun j : Fin N => if (j : Nat) + 1 < m then x j else 0 := by
    intro k m e
    funext j
    by_cases h : k ≤ (j : Nat)
    · rw [if_pos h, if_neg (by omega), zero_smul]
    · rw [if_neg h, if_pos (by omega)]
  match o, ho with
  | 0, _ =>
    rw [cut_zero]
    simp only [downCast, zero_smul]
  | 1, _ =>
    rcases hd with rfl | rfl
    · exact congrArg Res.ok (key 2 _ (by decide))
    · exact congrArg Res.ok (key 3 _ (by decide))
  | 2, _ =>
    rcases hd with rfl | rfl
    · exact congrArg Res.ok (key 5 _ (by decide))
    · exact congrArg Res.ok (key 9 _ (by decide))

/-- the loop ends at the highest truncation that is good, or at the mean -/
theorem lower_spec (hd : d = 2 ∨ d = 3) (kind : Kind) (rhoEps pEps : ℝ) (u : TU d) (pts : List (Fin N → ℝ)) : ∀ (o : Nat), o ≤ 3 → ∀ (y b : Fin N → TU d),
    ∃ s, lower kind rhoEps pEps u pts o y b = .ok s ∧
      ((∃ p, p < o ∧ good kind rhoEps pEps u pts (cut d p y) ∧ s.2 = cut d p y ∧ (s.1 = if p + 1 = o then y else cut d (p + 1) y) ∧
          ∀ q, p < q → q < o → ¬ good kind rhoEps pEps u pts (cut d q y)) ∨
        (0 < o ∧ s = (cut d 0 y, cut d 0 y) ∧ ∀ q < o, ¬ good kind rhoEps pEps u pts (cut d q y)) ∨ (o = 0 ∧ s = (y, b)))
  | 0, _, y, b => ⟨(y, b), rfl, Or.inr (Or.inr ⟨rfl, rfl⟩)⟩
  | o + 1, ho, y, b => by
    simp only [lower]
    rw [downCast_eq hd (by omega), Res.ok_bind]
    by_cases hg : good kind rhoEps pEps u pts (cut d o y)
    · rw [if_pos hg]
      exact ⟨_, rfl, Or.inl ⟨o, by omega, hg, rfl, (if_pos rfl).symm, fun q h1 h2 => by omega⟩⟩
    · rw [if_neg hg]
      obtain ⟨s, hs, h⟩ := lower_spec hd kind rhoEps pEps u pts o (by omega) (cut d o y) (cut d o y)
      refine ⟨s, hs, ?_⟩
      rcases h with ⟨p, hp, hg', h2, h1, h3⟩ | ⟨h0, h, h3⟩ | ⟨h0, h⟩
      · rw [cut_cut d hp.le] at hg' h2
        refine Or.inl ⟨p, by omega, hg', h2, ?_, fun q q1 q2 => ?_⟩
        · rw [h1, if_neg (by omega : ¬ p + 1 = o + 1)]
          split
          · rename_i e
            rw [e]
          · exact cut_cut d (by omega) y
        · by_cases e : q = o
          · rw [e]
            exact hg
          · have := h3 q q1 (by omega)
            rwa [cut_cut d (by omega)] at this
      · rw [cut_cut d (by omega)] at h
        refine Or.inr (Or.inl ⟨by omega, h, fun q hq => ?_⟩)
        by_cases e : q = o
        · rw [e]
          exact hg
        · have := h3 q (by omega)
          rwa [cut_cut d (by omega)] at this
      · subst h0
        exact Or.inr (Or.inl ⟨by omega, h, fun q hq => by rw [show q = 0 by omega]; exact hg⟩)

/-! ## The pressure -/

theorem thetaLoop_spec {gamma pEps : ℝ} (h1 : 1 < gamma) (h3 : gamma ≤ 3) (hp : 0 ≤ pEps) : ∀ (ps : List (St ℝ d × St ℝ d)) (theta : ℝ), 0 ≤ theta → theta ≤ 1 →
    (∀ p ∈ ps, 0 < p.1.1 ∧ 0 < (p.1 + p.2).1 ∧ pEps ≤ internal p.1 ∧ (Room pEps p.1 ∨ 2 * pEps / (gamma - 1) ≤ internal (p.1 + p.2))) →
    ∃ t, thetaLoop gamma pEps ps theta = .ok t ∧ 0 ≤ t ∧ t ≤ theta ∧ ∀ p ∈ ps, ∀ s, 0 ≤ s → s ≤ t → pEps ≤ internal (p.1 + s • p.2)
  | [], theta, h0, _, _ => ⟨theta, rfl, h0, le_rfl, by simp⟩
  | p :: ps, theta, h0, hle, h => by
    obtain ⟨r0, r1, e0, hr⟩ := h p (by simp)
    simp only [thetaLoop]
    rw [eInt_eq, add_comm p.2 p.1]
    by_cases hc : internal (p.1 + p.2) < 2 * pEps / (gamma - 1)
    · rw [if_pos hc]
      have hroom := hr.resolve_right (not_le.mpr hc)
      obtain ⟨a, ha, hfl⟩ := ratio_root_total p.1 p.2 pEps r0 r1 hroom
      obtain ⟨a0, a1, -, -⟩ := ratio_floor 0 p.1 p.2 pEps a ha
      rw [ha, Res.ok_bind]
      obtain ⟨t, ht, t0, t1, hall⟩ := thetaLoop_spec h1 h3 hp ps (min theta a) (le_min h0 a0) ((min_le_left _ _).trans hle) fun q hq => h q (by simp [hq])
      refine ⟨t, ht, t0, t1.trans (min_le_left _ _), fun q hq s s0 s1 => ?_⟩
      rcases List.mem_cons.mp hq with rfl | hq
      · refine internal_between q.1 q.2 r0 ?_ s0 ((s1.trans t1).trans (min_le_right _ _)) e0 hfl
        have r1' : 0 < q.1.1 + q.2.1 := r1
        show 0 < q.1.1 + a * q.2.1
        rcases le_total 0 q.2.1 with hi | hi <;> nlinarith
      · exact hall q hq s s0 s1
    · rw [if_neg hc]
      obtain ⟨t, ht, t0, t1, hall⟩ := thetaLoop_spec h1 h3 hp ps theta h0 hle fun q hq => h q (by simp [hq])
      refine ⟨t, ht, t0, t1, fun q hq s s0 s1 => ?_⟩
      rcases List.mem_cons.mp hq with rfl | hq
      · refine internal_between q.1 q.2 (s := 1) r0 (by rw [one_smul]; exact r1) s0 ((s1.trans t1).trans hle) e0 ?_
        rw [one_smul]
        refine le_trans ?_ (not_lt.mp hc)
        rw [le_div_iff₀ (by linarith)]
        nlinarith
      · exact hall q hq s s0 s1

end DNDSR.Pos
