import Verif.Spec.Gas
import Mathlib.Tactic.FieldSimp
import Mathlib.Tactic.Ring
import Mathlib.Tactic.LinearCombination
import Mathlib.Tactic.NormNum

/-!
# Conversions and eigenvectors of the ideal gas model (C39, C40)
-/

namespace DNDSR.Gas

open Finset

section Conv

variable {K : Type} [Field K] {d m : Nat}

theorem dot_smul_self (c : K) (v : Fin d → K) : (c • v) ⬝ᵥ (c • v) = c * c * (v ⬝ᵥ v) := by
  rw [smul_dotProduct, dotProduct_smul, smul_eq_mul, smul_eq_mul, mul_assoc]

theorem prim2consRaw_isGas (gamma : K) (P : St K d) (ext : Fin m → K) :
    IsGas gamma P.1 P.2.2 P.2.1 (prim2consRaw gamma P ext).1 ∧ ∀ k, (prim2consRaw gamma P ext).2 k = P.1 * ext k := by
  refine ⟨⟨rfl, fun i => rfl, ?_⟩, fun k => rfl⟩
  simp only [prim2consRaw, St.c0, St.c4, St.cv, energy, dotProduct]
  ring

theorem cons2primRaw_of_gas [LinearOrder K] {gamma rho p : K} {v : Fin d → K} {U : St K d} (ext : Fin m → K)
    (h : IsGas gamma rho p v U) (hr : rho ≠ 0) (hg : gamma ≠ 1) (h2 : (2 : K) ≠ 0) :
    cons2primRaw gamma U ext = ((rho, v, p), fun k => ext k / rho) := by
  obtain ⟨h0, hv, h4⟩ := h
  have hg' : gamma - 1 ≠ 0 := sub_ne_zero.mpr hg
  have hvel : (rho⁻¹ • U.2.1 : Fin d → K) = v := by
    funext i
    simp only [Pi.smul_apply, smul_eq_mul, hv]
    field_simp
  simp only [cons2primRaw, St.c0, St.cv, St.c4, h0, h4, Prod.smul_fst, Prod.smul_snd, hvel, Prod.mk.injEq, true_and]
  refine ⟨?_, ?_⟩
  · simp only [energy, dotProduct]
    field_simp
    ring
  · funext k
    simp only [Pi.smul_apply, smul_eq_mul]
    rw [mul_comm, div_eq_mul_inv]

end Conv

section C39

variable {K : Type} [Field K] [LinearOrder K] [IsStrictOrderedRing K] {d m : Nat}

/-- **C39** (primitive to conservative) For a positive density the conversion gives the mass, momentum and energy of the gas and
scales the additional variables by the density; otherwise the program aborts. -/
theorem prim2cons_gas (gamma : K) (P : St K d) (ext : Fin m → K) :
    (0 < P.1 → ∃ U e, prim2cons gamma P ext = .ok (U, e) ∧ IsGas gamma P.1 P.2.2 P.2.1 U ∧ ∀ k, e k = P.1 * ext k) ∧
    (¬ 0 < P.1 → prim2cons gamma P ext = .abort) := by
  refine ⟨fun h => ?_, fun h => if_neg h⟩
  exact ⟨_, _, if_pos h, (prim2consRaw_isGas gamma P ext).1, (prim2consRaw_isGas gamma P ext).2⟩

/-- **C39** (conservative to primitive) The conversion finds the density, velocity and pressure of which the state is the
conservative form. -/
theorem cons2prim_gas {gamma rho p : K} {v : Fin d → K} {U : St K d} (ext : Fin m → K) (h : IsGas gamma rho p v U)
    (hr : 0 < rho) (hg : gamma ≠ 1) : cons2prim gamma U ext = .ok ((rho, v, p), fun k => ext k / rho) := by
  have h0 : 0 < U.c0 := by rw [show U.c0 = rho from h.mass]; exact hr
  rw [cons2prim, if_pos h0, cons2primRaw_of_gas ext h hr.ne' hg two_ne_zero]

/-- **C39** (round trip) From a primitive state with positive density to conservative variables and back. -/
theorem prim_cons_prim (gamma : K) (P : St K d) (ext : Fin m → K) (hr : 0 < P.1) (hg : gamma ≠ 1) :
    (prim2cons gamma P ext >>= fun q => cons2prim gamma q.1 q.2) = .ok (P, ext) := by
  obtain ⟨U, e, hU, hgas, he⟩ := (prim2cons_gas gamma P ext).1 hr
  rw [hU]
  show cons2prim gamma U e = _
  rw [cons2prim_gas e hgas hr hg]
  have : (fun k => e k / P.1) = ext := by
    funext k
    rw [he]
    field_simp
  rw [this]

/-- Every conservative state with a positive density is that of a gas. -/
theorem exists_gas (gamma : K) (U : St K d) (hr : 0 < U.1) (hg : gamma ≠ 1) :
    IsGas gamma U.1 ((gamma - 1) * (U.2.2 - (∑ i, U.2.1 i * U.2.1 i) / (2 * U.1))) (fun i => U.2.1 i / U.1) U := by
  have hg' : gamma - 1 ≠ 0 := sub_ne_zero.mpr hg
  refine ⟨rfl, fun i => by field_simp, ?_⟩
  simp only [energy]
  have : ∀ i : Fin d, U.2.1 i / U.1 * (U.2.1 i / U.1) = (U.2.1 i * U.2.1 i) * (1 / (U.1 * U.1)) := fun i => by field_simp
  rw [sum_congr rfl fun i _ => this i, ← sum_mul]
  have := hr.ne'
  field_simp
  ring

/-- **C39** (round trip) From a conservative state with positive density to primitive variables and back. -/
theorem cons_prim_cons (gamma : K) (U : St K d) (ext : Fin m → K) (hr : 0 < U.1) (hg : gamma ≠ 1) :
    (cons2prim gamma U ext >>= fun q => prim2cons gamma q.1 q.2) = .ok (U, ext) := by
  have hgas := exists_gas gamma U hr hg
  rw [cons2prim_gas ext hgas hr hg]
  show prim2cons gamma _ _ = _
  obtain ⟨V, e, hV, hg2, he⟩ := (prim2cons_gas gamma (U.1, (fun i => U.2.1 i / U.1),
    ((gamma - 1) * (U.2.2 - (∑ i, U.2.1 i * U.2.1 i) / (2 * U.1)))) (fun k => ext k / U.1)).1 hr
  rw [hV]
  have hVU : V = U := by
    refine Prod.ext (hg2.mass) (Prod.ext (funext fun i => ?_) ?_)
    · exact (hg2.momentum i).trans (hgas.momentum i).symm
    · exact hg2.energy.trans hgas.energy.symm
  have hee : e = ext := by
    funext k
    rw [he]
    field_simp
  rw [hVU, hee]

/-- **C39** (thermodynamics) From the conservative variables of a gas `IdealGasThermal` finds the pressure, the squared sound
speed `γ p / ρ`, and the specific total enthalpy `γ / (γ - 1) · p / ρ + |v|² / 2`. -/
theorem thermal_gas {gamma rho p : K} {v : Fin d → K} {U : St K d} (h : IsGas gamma rho p v U) (hr : rho ≠ 0) (hg : gamma ≠ 1) :
    thermal U.2.2 U.1 (∑ i, v i * v i) gamma =
      (p, gamma * p / rho, gamma / (gamma - 1) * (p / rho) + (∑ i, v i * v i) / 2) := by
  have hg' : gamma - 1 ≠ 0 := sub_ne_zero.mpr hg
  simp only [thermal, h.mass, h.energy, energy, Prod.mk.injEq]
  refine ⟨?_, ?_, ?_⟩ <;> field_simp <;> ring

/-- non-vacuity: air at density 2, pressure 1, velocity (3, 4) has momentum (6, 8) and energy 1 / 0.4 + 25. -/
example : prim2cons (7 / 5 : ℚ) (2, ![3, 4], 1) ![(5 : ℚ)] = .ok ((2, ![6, 8], 55 / 2), ![10]) := by
  rw [prim2cons, if_pos (by norm_num [St.c0])]
  simp [prim2consRaw, St.c0, St.cv, St.c4, dotProduct, Fin.sum_univ_two, funext_iff, Fin.forall_fin_two]
  norm_num

end C39

section C40

variable {K : Type} [Field K]

/-- a sum over all rows, split into density, normal momentum, tangential momentum and energy -/
theorem sum_rows (m : Nat) (f : Nat → K) :
    ∑ k ∈ range (m + 1 + 2), f k = f 0 + f 1 + (∑ k ∈ range m, f (k + 2)) + f (m + 1 + 1) := by
  rw [sum_range_succ, sum_range_succ', sum_range_succ']
  ring

theorem sum_delta (m : Nat) (f : Nat → K) {j : Nat} (hj : j < m) :
    ∑ k ∈ range m, (if k = j then f k else 0) = f j := by
  rw [sum_ite_eq' (range m) j f, if_pos (mem_range.mpr hj)]

/-- the cases of a row or column number -/
theorem row_cases (m i : Nat) (hi : i < m + 1 + 2) : i = 0 ∨ i = 1 ∨ (∃ k, k < m ∧ i = k + 2) ∨ i = m + 1 + 1 := by
  by_cases h0 : i = 0
  · exact .inl h0
  by_cases h1 : i = 1
  · exact .inr (.inl h1)
  by_cases h2 : i = m + 1 + 1
  · exact .inr (.inr (.inr h2))
  · exact .inr (.inr (.inl ⟨i - 2, by omega, by omega⟩))

section Entries

variable (m : Nat) (v : Nat → K) (q H a g : K)

theorem r00 : rightEig (m + 1) v q H a 0 0 = 1 := by simp [rightEig]
theorem r01 : rightEig (m + 1) v q H a 0 1 = 1 := by simp [rightEig]
theorem r0t {k : Nat} (hk : k < m) : rightEig (m + 1) v q H a 0 (k + 2) = 0 := by
  simp [rightEig]; omega
theorem r04 : rightEig (m + 1) v q H a 0 (m + 1 + 1) = 1 := by simp [rightEig]
theorem r10 : rightEig (m + 1) v q H a 1 0 = v 0 - a := by simp [rightEig]
theorem r11 : rightEig (m + 1) v q H a 1 1 = v 0 := by simp [rightEig]
theorem r1t {k : Nat} (hk : k < m) : rightEig (m + 1) v q H a 1 (k + 2) = 0 := by
  simp only [rightEig]
  rw [if_neg (by omega), if_neg (by omega), if_neg (by omega), if_neg (by omega), if_neg (by omega), if_neg (by omega)]
theorem r14 : rightEig (m + 1) v q H a 1 (m + 1 + 1) = v 0 + a := by simp [rightEig]
theorem rt0 {k : Nat} (hk : k < m) : rightEig (m + 1) v q H a (k + 2) 0 = v (k + 1) := by
  simp only [rightEig]
  rw [if_neg (by omega), if_neg (by omega), if_pos trivial, if_neg (by omega)]
  rfl
theorem rt1 {k : Nat} (hk : k < m) : rightEig (m + 1) v q H a (k + 2) 1 = v (k + 1) := by
  simp only [rightEig]
  rw [if_neg (by omega), if_neg (by omega), if_neg (by omega), if_neg (by omega), if_pos trivial]
  rfl
theorem rtt {k l : Nat} (hk : k < m) (hl : l < m) : rightEig (m + 1) v q H a (k + 2) (l + 2) = if k = l then 1 else 0 := by
  simp only [rightEig]
  rw [if_neg (by omega), if_neg (by omega), if_neg (by omega), if_neg (by omega), if_neg (by omega)]
  simp
theorem rt4 {k : Nat} (hk : k < m) : rightEig (m + 1) v q H a (k + 2) (m + 1 + 1) = v (k + 1) := by
  simp only [rightEig]
  rw [if_neg (by omega), if_neg (by omega), if_neg (by omega), if_pos trivial, if_neg (by omega)]
  rfl
theorem r40 : rightEig (m + 1) v q H a (m + 1 + 1) 0 = H - v 0 * a := by simp [rightEig]
theorem r41 : rightEig (m + 1) v q H a (m + 1 + 1) 1 = 1 / 2 * q := by simp [rightEig]
theorem r4t {k : Nat} (hk : k < m) : rightEig (m + 1) v q H a (m + 1 + 1) (k + 2) = v (k + 1) := by
  simp only [rightEig]
  rw [if_neg (by omega), if_pos trivial, if_neg (by omega), if_neg (by omega), if_neg (by omega)]
  rfl
theorem r44 : rightEig (m + 1) v q H a (m + 1 + 1) (m + 1 + 1) = H + v 0 * a := by simp [rightEig]

theorem l00 : leftEig (m + 1) v H a g 0 0 = (H + a / (g - 1) * (v 0 - a)) * ((g - 1) / (2 * a * a)) := by simp [leftEig]
theorem l01 : leftEig (m + 1) v H a g 0 1 = (-v 0 - a / (g - 1)) * ((g - 1) / (2 * a * a)) := by simp [leftEig]
theorem l0t {k : Nat} (hk : k < m) : leftEig (m + 1) v H a g 0 (k + 2) = -v (k + 1) * ((g - 1) / (2 * a * a)) := by
  simp only [leftEig]
  rw [if_pos trivial, if_neg (by omega), if_neg (by omega), if_neg (by omega)]
  rfl
theorem l04 : leftEig (m + 1) v H a g 0 (m + 1 + 1) = 1 * ((g - 1) / (2 * a * a)) := by simp [leftEig]
theorem l10 : leftEig (m + 1) v H a g 1 0 = (-2 * H + 4 / (g - 1) * (a * a)) * ((g - 1) / (2 * a * a)) := by simp [leftEig]
theorem l11 : leftEig (m + 1) v H a g 1 1 = v 0 * 2 * ((g - 1) / (2 * a * a)) := by simp [leftEig]
theorem l1t {k : Nat} (hk : k < m) : leftEig (m + 1) v H a g 1 (k + 2) = v (k + 1) * 2 * ((g - 1) / (2 * a * a)) := by
  simp only [leftEig]
  rw [if_neg (by omega), if_pos trivial, if_neg (by omega), if_neg (by omega)]
  rfl
theorem l14 : leftEig (m + 1) v H a g 1 (m + 1 + 1) = -2 * ((g - 1) / (2 * a * a)) := by simp [leftEig]
theorem lt0 {k : Nat} (hk : k < m) :
    leftEig (m + 1) v H a g (k + 2) 0 = v (k + 1) * (-2 * (a * a) / (g - 1)) * ((g - 1) / (2 * a * a)) := by
  simp only [leftEig]
  rw [if_neg (by omega), if_neg (by omega), if_neg (by omega), if_pos trivial]
  rfl
theorem lt1 {k : Nat} (hk : k < m) : leftEig (m + 1) v H a g (k + 2) 1 = 0 := by
  simp only [leftEig]
  rw [if_neg (by omega), if_neg (by omega), if_neg (by omega), if_neg (by omega), if_neg (by omega), zero_mul]
theorem ltt {k l : Nat} (hk : k < m) :
    leftEig (m + 1) v H a g (k + 2) (l + 2) = (if k = l then 2 * (a * a) / (g - 1) else 0) * ((g - 1) / (2 * a * a)) := by
  simp only [leftEig]
  rw [if_neg (by omega), if_neg (by omega), if_neg (by omega), if_neg (by omega)]
  simp
theorem lt4 {k : Nat} (hk : k < m) : leftEig (m + 1) v H a g (k + 2) (m + 1 + 1) = 0 := by
  simp only [leftEig]
  rw [if_neg (by omega), if_neg (by omega), if_neg (by omega), if_neg (by omega), if_neg (by omega), zero_mul]
theorem l40 : leftEig (m + 1) v H a g (m + 1 + 1) 0 = (H - a / (g - 1) * (v 0 + a)) * ((g - 1) / (2 * a * a)) := by simp [leftEig]
theorem l41 : leftEig (m + 1) v H a g (m + 1 + 1) 1 = (-v 0 + a / (g - 1)) * ((g - 1) / (2 * a * a)) := by simp [leftEig]
theorem l4t {k : Nat} (hk : k < m) : leftEig (m + 1) v H a g (m + 1 + 1) (k + 2) = -v (k + 1) * ((g - 1) / (2 * a * a)) := by
  simp only [leftEig]
  rw [if_neg (by omega), if_neg (by omega), if_pos trivial, if_neg (by omega), if_neg (by omega), if_neg (by omega)]
  rfl
theorem l44 : leftEig (m + 1) v H a g (m + 1 + 1) (m + 1 + 1) = 1 * ((g - 1) / (2 * a * a)) := by simp [leftEig]

end Entries

/-- **C40** (inverse) With `H = a² / (γ - 1) + |v|² / 2`, the left eigenvector matrix times the right one is the identity, entry by
entry. -/
theorem left_right (m : Nat) (v : Nat → K) (H a g : K) (h2 : (2 : K) ≠ 0) (ha : a ≠ 0) (hg : g ≠ 1)
    (hH : H = a * a / (g - 1) + (∑ k ∈ range (m + 1), v k * v k) / 2) (i j : Nat) (hi : i < m + 1 + 2) (hj : j < m + 1 + 2) :
    ∑ k ∈ range (m + 1 + 2), leftEig (m + 1) v H a g i k * rightEig (m + 1) v (∑ k ∈ range (m + 1), v k * v k) H a k j =
      if i = j then 1 else 0 := by
  have hg' : g - 1 ≠ 0 := sub_ne_zero.mpr hg
  rw [sum_rows]
  rw [sum_range_succ'] at hH ⊢
  set q := ∑ k ∈ range m, v (k + 1) * v (k + 1) with hq
  have hc : ∀ c : K, ∑ k ∈ range m, -v (k + 1) * c * v (k + 1) = -(c * q) := fun c => by
    rw [hq, mul_sum, ← sum_neg_distrib]
    exact sum_congr rfl fun k _ => by ring
  have hc2 : ∀ c : K, ∑ k ∈ range m, v (k + 1) * 2 * c * v (k + 1) = 2 * (c * q) := fun c => by
    rw [hq, mul_sum, mul_sum]
    exact sum_congr rfl fun k _ => by ring
  rcases row_cases m i hi with rfl | rfl | ⟨x, hx, rfl⟩ | rfl <;> rcases row_cases m j hj with rfl | rfl | ⟨y, hy, rfl⟩ | rfl
  · rw [sum_congr rfl (g := fun k => -v (k + 1) * ((g - 1) / (2 * a * a)) * v (k + 1)) fun k hk => by rw [l0t m v H a g (mem_range.mp hk), rt0 m v _ H a (mem_range.mp hk)]]
    rw [hc]
    rw [l00, r00, l01, r10, l04, r40]
    rw [if_pos rfl, hH]
    field_simp
    try ring
  · rw [sum_congr rfl (g := fun k => -v (k + 1) * ((g - 1) / (2 * a * a)) * v (k + 1)) fun k hk => by rw [l0t m v H a g (mem_range.mp hk), rt1 m v _ H a (mem_range.mp hk)]]
    rw [hc]
    rw [l00, r01, l01, r11, l04, r41]
    rw [if_neg (by omega)]
    try rw [hH]
    field_simp
    try ring
  · rw [sum_congr rfl (g := fun k => -v (k + 1) * ((g - 1) / (2 * a * a)) * (if k = y then 1 else 0)) fun k hk => by rw [l0t m v H a g (mem_range.mp hk), rtt m v _ H a (mem_range.mp hk) hy]]
    rw [sum_congr rfl (g := fun k => if k = y then -v (k + 1) * ((g - 1) / (2 * a * a)) else 0) fun k _ => by
      by_cases h : k = y
      · rw [if_pos h, if_pos h, mul_one]
      · rw [if_neg h, if_neg h, mul_zero],
      sum_delta m _ hy]
    rw [l00, r0t m v _ H a hy, l01, r1t m v _ H a hy, l04, r4t m v _ H a hy]
    rw [if_neg (by omega)]
    try rw [hH]
    field_simp
    try ring
  · rw [sum_congr rfl (g := fun k => -v (k + 1) * ((g - 1) / (2 * a * a)) * v (k + 1)) fun k hk => by rw [l0t m v H a g (mem_range.mp hk), rt4 m v _ H a (mem_range.mp hk)]]
    rw [hc]
    rw [l00, r04, l01, r14, l04, r44]
    rw [if_neg (by omega)]
    try rw [hH]
    field_simp
    try ring
  · rw [sum_congr rfl (g := fun k => v (k + 1) * 2 * ((g - 1) / (2 * a * a)) * v (k + 1)) fun k hk => by rw [l1t m v H a g (mem_range.mp hk), rt0 m v _ H a (mem_range.mp hk)]]
    rw [hc2]
    rw [l10, r00, l11, r10, l14, r40]
    rw [if_neg (by omega)]
    try rw [hH]
    field_simp
    try ring
  · rw [sum_congr rfl (g := fun k => v (k + 1) * 2 * ((g - 1) / (2 * a * a)) * v (k + 1)) fun k hk => by rw [l1t m v H a g (mem_range.mp hk), rt1 m v _ H a (mem_range.mp hk)]]
    rw [hc2]
    rw [l10, r01, l11, r11, l14, r41]
    rw [if_pos rfl, hH]
    field_simp
    try ring
  · rw [sum_congr rfl (g := fun k => v (k + 1) * 2 * ((g - 1) / (2 * a * a)) * (if k = y then 1 else 0)) fun k hk => by rw [l1t m v H a g (mem_range.mp hk), rtt m v _ H a (mem_range.mp hk) hy]]
    rw [sum_congr rfl (g := fun k => if k = y then v (k + 1) * 2 * ((g - 1) / (2 * a * a)) else 0) fun k _ => by
      by_cases h : k = y
      · rw [if_pos h, if_pos h, mul_one]
      · rw [if_neg h, if_neg h, mul_zero],
      sum_delta m _ hy]
    rw [l10, r0t m v _ H a hy, l11, r1t m v _ H a hy, l14, r4t m v _ H a hy]
    rw [if_neg (by omega)]
    try rw [hH]
    field_simp
    try ring
  · rw [sum_congr rfl (g := fun k => v (k + 1) * 2 * ((g - 1) / (2 * a * a)) * v (k + 1)) fun k hk => by rw [l1t m v H a g (mem_range.mp hk), rt4 m v _ H a (mem_range.mp hk)]]
    rw [hc2]
    rw [l10, r04, l11, r14, l14, r44]
    rw [if_neg (by omega)]
    try rw [hH]
    field_simp
    try ring
  · rw [sum_congr rfl (g := fun k => (if x = k then 2 * (a * a) / (g - 1) else 0) * ((g - 1) / (2 * a * a)) * v (k + 1)) fun k hk => by rw [ltt m v H a g hx, rt0 m v _ H a (mem_range.mp hk)]]
    rw [sum_congr rfl (g := fun k => if k = x then 2 * (a * a) / (g - 1) * ((g - 1) / (2 * a * a)) * v (k + 1) else 0) fun k _ => by
      by_cases h : x = k
      · rw [if_pos h, if_pos h.symm]
      · rw [if_neg h, if_neg (Ne.symm h), zero_mul, zero_mul],
      sum_delta m _ hx]
    rw [lt0 m v H a g hx, r00, lt1 m v H a g hx, r10, lt4 m v H a g hx, r40]
    rw [if_neg (by omega)]
    try rw [hH]
    field_simp
    try ring
  · rw [sum_congr rfl (g := fun k => (if x = k then 2 * (a * a) / (g - 1) else 0) * ((g - 1) / (2 * a * a)) * v (k + 1)) fun k hk => by rw [ltt m v H a g hx, rt1 m v _ H a (mem_range.mp hk)]]
    rw [sum_congr rfl (g := fun k => if k = x then 2 * (a * a) / (g - 1) * ((g - 1) / (2 * a * a)) * v (k + 1) else 0) fun k _ => by
      by_cases h : x = k
      · rw [if_pos h, if_pos h.symm]
      · rw [if_neg h, if_neg (Ne.symm h), zero_mul, zero_mul],
      sum_delta m _ hx]
    rw [lt0 m v H a g hx, r01, lt1 m v H a g hx, r11, lt4 m v H a g hx, r41]
    rw [if_neg (by omega)]
    try rw [hH]
    field_simp
    try ring
  · rw [sum_congr rfl (g := fun k => (if x = k then 2 * (a * a) / (g - 1) else 0) * ((g - 1) / (2 * a * a)) * (if k = y then 1 else 0)) fun k hk => by rw [ltt m v H a g hx, rtt m v _ H a (mem_range.mp hk) hy]]
    rw [sum_congr rfl (g := fun k => if k = y then (if x = k then 2 * (a * a) / (g - 1) else 0) * ((g - 1) / (2 * a * a)) else 0) fun k _ => by
      by_cases h : k = y
      · rw [if_pos h, if_pos h, mul_one]
      · rw [if_neg h, if_neg h, mul_zero],
      sum_delta m _ hy]
    rw [lt0 m v H a g hx, r0t m v _ H a hy, lt1 m v H a g hx, r1t m v _ H a hy, lt4 m v H a g hx, r4t m v _ H a hy]
    by_cases hxy : x = y
    · rw [if_pos hxy, if_pos (by omega)]
      field_simp
      try ring
    · rw [if_neg hxy, if_neg (by omega)]
      ring
  · rw [sum_congr rfl (g := fun k => (if x = k then 2 * (a * a) / (g - 1) else 0) * ((g - 1) / (2 * a * a)) * v (k + 1)) fun k hk => by rw [ltt m v H a g hx, rt4 m v _ H a (mem_range.mp hk)]]
    rw [sum_congr rfl (g := fun k => if k = x then 2 * (a * a) / (g - 1) * ((g - 1) / (2 * a * a)) * v (k + 1) else 0) fun k _ => by
      by_cases h : x = k
      · rw [if_pos h, if_pos h.symm]
      · rw [if_neg h, if_neg (Ne.symm h), zero_mul, zero_mul],
      sum_delta m _ hx]
    rw [lt0 m v H a g hx, r04, lt1 m v H a g hx, r14, lt4 m v H a g hx, r44]
    rw [if_neg (by omega)]
    try rw [hH]
    field_simp
    try ring
  · rw [sum_congr rfl (g := fun k => -v (k + 1) * ((g - 1) / (2 * a * a)) * v (k + 1)) fun k hk => by rw [l4t m v H a g (mem_range.mp hk), rt0 m v _ H a (mem_range.mp hk)]]
    rw [hc]
    rw [l40, r00, l41, r10, l44, r40]
    rw [if_neg (by omega)]
    try rw [hH]
    field_simp
    try ring
  · rw [sum_congr rfl (g := fun k => -v (k + 1) * ((g - 1) / (2 * a * a)) * v (k + 1)) fun k hk => by rw [l4t m v H a g (mem_range.mp hk), rt1 m v _ H a (mem_range.mp hk)]]
    rw [hc]
    rw [l40, r01, l41, r11, l44, r41]
    rw [if_neg (by omega)]
    try rw [hH]
    field_simp
    try ring
  · rw [sum_congr rfl (g := fun k => -v (k + 1) * ((g - 1) / (2 * a * a)) * (if k = y then 1 else 0)) fun k hk => by rw [l4t m v H a g (mem_range.mp hk), rtt m v _ H a (mem_range.mp hk) hy]]
    rw [sum_congr rfl (g := fun k => if k = y then -v (k + 1) * ((g - 1) / (2 * a * a)) else 0) fun k _ => by
      by_cases h : k = y
      · rw [if_pos h, if_pos h, mul_one]
      · rw [if_neg h, if_neg h, mul_zero],
      sum_delta m _ hy]
    rw [l40, r0t m v _ H a hy, l41, r1t m v _ H a hy, l44, r4t m v _ H a hy]
    rw [if_neg (by omega)]
    try rw [hH]
    field_simp
    try ring
  · rw [sum_congr rfl (g := fun k => -v (k + 1) * ((g - 1) / (2 * a * a)) * v (k + 1)) fun k hk => by rw [l4t m v H a g (mem_range.mp hk), rt4 m v _ H a (mem_range.mp hk)]]
    rw [hc]
    rw [l40, r04, l41, r14, l44, r44]
    rw [if_pos rfl, hH]
    field_simp
    try ring

/-- **C40** (inverse, the other order) The right eigenvector matrix times the left one is the identity. -/
theorem right_left (m : Nat) (v : Nat → K) (H a g : K) (h2 : (2 : K) ≠ 0) (ha : a ≠ 0) (hg : g ≠ 1)
    (hH : H = a * a / (g - 1) + (∑ k ∈ range (m + 1), v k * v k) / 2) (i j : Nat) (hi : i < m + 1 + 2) (hj : j < m + 1 + 2) :
    ∑ k ∈ range (m + 1 + 2), rightEig (m + 1) v (∑ k ∈ range (m + 1), v k * v k) H a i k * leftEig (m + 1) v H a g k j =
      if i = j then 1 else 0 := by
  have hmul : (Matrix.of fun i j : Fin (m + 1 + 2) => leftEig (m + 1) v H a g i j) *
      (Matrix.of fun i j : Fin (m + 1 + 2) => rightEig (m + 1) v (∑ k ∈ range (m + 1), v k * v k) H a i j) = 1 := by
    ext x y
    rw [Matrix.mul_apply, Matrix.one_apply]
    simp only [Matrix.of_apply]
    rw [Fin.sum_univ_eq_sum_range
      (fun k => leftEig (m + 1) v H a g x k * rightEig (m + 1) v (∑ k ∈ range (m + 1), v k * v k) H a k y),
      left_right m v H a g h2 ha hg hH x y x.2 y.2]
    simp only [Fin.ext_iff]
  have hmul2 := mul_eq_one_comm.mp hmul
  have := congrFun (congrFun hmul2 ⟨i, hi⟩) ⟨j, hj⟩
  rw [Matrix.mul_apply, Matrix.one_apply] at this
  simp only [Matrix.of_apply, Fin.mk.injEq] at this
  rw [← this, Fin.sum_univ_eq_sum_range
      (fun k => rightEig (m + 1) v (∑ k ∈ range (m + 1), v k * v k) H a i k * leftEig (m + 1) v H a g k j)]

/-- The derivative of the flux through a face with normal `n`, as the program computes it. -/
def jacobian {d : Nat} (gamma : K) (U : St K d) (p : K) (v vg n : Fin d → K) (dU : St K d) : St K d :=
  fluxIncrement U dU n v (uIncrement U dU v gamma).1 vg (uIncrement U dU v gamma).2 p

theorem column_dot (m : Nat) (v : Nat → K) (q H a : K) (j : Nat) :
    ∑ i : Fin (m + 1), (column (m + 1) (rightEig (m + 1) v q H a) j).2.1 i * v i =
      rightEig (m + 1) v q H a 1 j * v 0 + ∑ k ∈ range m, rightEig (m + 1) v q H a (k + 2) j * v (k + 1) := by
  refine (Fin.sum_univ_eq_sum_range (fun i => rightEig (m + 1) v q H a (i + 1) j * v i) (m + 1)).trans ?_
  rw [sum_range_succ']
  ring

/-- the derivative of the flux in the first direction, written out -/
theorem jacobian_form (m : Nat) (v vg : Fin (m + 1) → K) (rho p g : K) (U : St K (m + 1)) (h2 : (2 : K) ≠ 0)
    (hr : rho ≠ 0) (hg : g ≠ 1) (hU : IsGas g rho p v U) (x0 x4 : K) (xv : Fin (m + 1) → K) :
    jacobian g U p v vg (Pi.single 0 1) (x0, xv, x4) =
      (xv 0 - vg 0 * x0,
       fun i => v 0 * xv i + v i * (xv 0 - x0 * v 0) +
         (if i = 0 then (g - 1) * (x4 - (∑ k, xv k * v k) + x0 * (∑ k, v k * v k) / 2) else 0) - vg 0 * xv i,
       (x4 + (g - 1) * (x4 - (∑ k, xv k * v k) + x0 * (∑ k, v k * v k) / 2)) * v 0 +
         (g / (g - 1) * (p / rho) + (∑ k, v k * v k) / 2) * (xv 0 - x0 * v 0) - vg 0 * x4) := by
  have hg' : g - 1 ≠ 0 := sub_ne_zero.mpr hg
  obtain ⟨h0, hv, h4⟩ := hU
  have hUv : U.2.1 = rho • v := funext hv
  have hdv : (uIncrement U (x0, xv, x4) v g).1 = rho⁻¹ • (xv - x0 • v) := by
    simp only [uIncrement, St.c0, St.cv, h0, hUv, smul_smul]
    rw [inv_mul_cancel₀ hr, mul_one]
  have hdp : (uIncrement U (x0, xv, x4) v g).2 = (g - 1) * (x4 - (∑ k, xv k * v k) + x0 * (∑ k, v k * v k) / 2) := by
    have : (uIncrement U (x0, xv, x4) v g).2 =
        (g - 1) * (x4 - 1 / 2 * (xv ⬝ᵥ v + U.2.1 ⬝ᵥ (uIncrement U (x0, xv, x4) v g).1)) := rfl
    rw [this, hdv, hUv, smul_dotProduct, dotProduct_smul, smul_smul, mul_inv_cancel₀ hr, one_smul, dotProduct_sub, dotProduct_smul,
      dotProduct_comm v xv]
    simp only [dotProduct, smul_eq_mul]
    field_simp
    ring
  rw [jacobian, fluxIncrement, hdp, hdv]
  simp only [dotProduct_single, mul_one, St.cv, St.c4, hUv, h4, energy, Prod.ext_iff, Prod.fst_sub, Prod.snd_sub, Prod.smul_fst,
    Prod.smul_snd, smul_eq_mul]
  refine ⟨trivial, ?_, ?_⟩
  · funext i
    by_cases hi : i = 0
    · subst hi
      simp
      field_simp
    · simp [hi]
      field_simp
  · simp
    field_simp
    ring

/-- **C40** (eigenvectors) The columns of the right eigenvector matrix are eigenvectors of the derivative of the flux in the first
direction, with eigenvalues `u - a`, `u`, ..., `u`, `u + a`, where `u` is the velocity in that direction relative to the face. -/
theorem right_eigen (m : Nat) (v : Nat → K) (vg : Fin (m + 1) → K) (rho p H a g : K) (U : St K (m + 1)) (h2 : (2 : K) ≠ 0)
    (hr : rho ≠ 0) (hg : g ≠ 1) (hU : IsGas g rho p (fun i : Fin (m + 1) => v i) U) (hasq : a * a = g * p / rho)
    (hH : H = g / (g - 1) * (p / rho) + (∑ k ∈ range (m + 1), v k * v k) / 2) (j : Nat) (hj : j < m + 1 + 2) :
    jacobian g U p (fun i => v i) vg (Pi.single 0 1)
        (column (m + 1) (rightEig (m + 1) v (∑ k ∈ range (m + 1), v k * v k) H a) j) =
      (v 0 - vg 0 + if j = 0 then -a else if j = m + 1 + 1 then a else 0) •
        column (m + 1) (rightEig (m + 1) v (∑ k ∈ range (m + 1), v k * v k) H a) j := by
  have hg' : g - 1 ≠ 0 := sub_ne_zero.mpr hg
  have hd := column_dot m v (∑ k ∈ range (m + 1), v k * v k) H a j
  have hvv : ∑ k : Fin (m + 1), v k * v k = ∑ k ∈ range (m + 1), v k * v k :=
    Fin.sum_univ_eq_sum_range (fun k => v k * v k) (m + 1)
  have hvq : ∑ k ∈ range m, v (k + 1) * v (k + 1) = (∑ k ∈ range (m + 1), v k * v k) - v 0 * v 0 := by
    rw [sum_range_succ']
    ring
  generalize hq : ∑ k ∈ range (m + 1), v k * v k = q at hd hH hvv hvq ⊢
  have hH' : H * (g - 1) = a * a + (g - 1) * q / 2 := by
    rw [hH, hasq]
    field_simp
  have hH2 : g / (g - 1) * (p / rho) + q / 2 = H := hH.symm
  have hform := jacobian_form m (fun i => v i) vg rho p g U h2 hr hg hU
    (rightEig (m + 1) v q H a 0 j) (rightEig (m + 1) v q H a (m + 1 + 1) j) (fun i => rightEig (m + 1) v q H a (i.val + 1) j)
  have hd' : ∑ k : Fin (m + 1), rightEig (m + 1) v q H a (k.val + 1) j * v k =
      rightEig (m + 1) v q H a 1 j * v 0 + ∑ k ∈ range m, rightEig (m + 1) v q H a (k + 2) j * v (k + 1) := hd
  rw [hd', hvv, hH2] at hform
  refine Eq.trans hform ?_
  simp only [column, Prod.smul_mk, smul_eq_mul, Prod.mk.injEq, Fin.val_zero, zero_add]
  have hhalf : (2 : K)⁻¹ * 2 = 1 := inv_mul_cancel₀ h2
  rcases row_cases m j hj with rfl | rfl | ⟨y, hy, rfl⟩ | rfl
  · have hs : ∑ k ∈ range m, rightEig (m + 1) v q H a (k + 2) 0 * v (k + 1) = q - v 0 * v 0 := by
      rw [← hvq]
      exact sum_congr rfl fun k hk => by rw [rt0 m v q H a (mem_range.mp hk)]
    rw [hs, r00 m v q H a, r10 m v q H a, r40 m v q H a]
    rw [if_pos rfl]
    refine ⟨by ring, funext fun i => ?_, ?_⟩
    · obtain ⟨i, hi⟩ := i
      rcases i with _ | k
      · simp only [Fin.mk_zero, Fin.val_zero, zero_add, if_true, Pi.smul_apply, smul_eq_mul, r10 m v q H a]
        linear_combination hH' + (g * q - q) * hhalf
      · have : (⟨k + 1, hi⟩ : Fin (m + 1)) ≠ 0 := by simp [Fin.ext_iff]
        simp only [this, if_false, Pi.smul_apply, smul_eq_mul, rt0 m v q H a (k := k) (by omega)]
        ring
    · linear_combination hH' * v 0 + (g * q - q) * v 0 * hhalf
  · have hs : ∑ k ∈ range m, rightEig (m + 1) v q H a (k + 2) 1 * v (k + 1) = q - v 0 * v 0 := by
      rw [← hvq]
      exact sum_congr rfl fun k hk => by rw [rt1 m v q H a (mem_range.mp hk)]
    rw [hs, r01 m v q H a, r11 m v q H a, r41 m v q H a]
    rw [if_neg (by omega), if_neg (by omega)]
    refine ⟨by ring, funext fun i => ?_, ?_⟩
    · obtain ⟨i, hi⟩ := i
      rcases i with _ | k
      · simp only [Fin.mk_zero, Fin.val_zero, zero_add, if_true, Pi.smul_apply, smul_eq_mul, r11 m v q H a]
        linear_combination (g * q - q) * hhalf
      · have : (⟨k + 1, hi⟩ : Fin (m + 1)) ≠ 0 := by simp [Fin.ext_iff]
        simp only [this, if_false, Pi.smul_apply, smul_eq_mul, rt1 m v q H a (k := k) (by omega)]
        ring
    · linear_combination (g * q - q) * v 0 * hhalf
  · have hs : ∑ k ∈ range m, rightEig (m + 1) v q H a (k + 2) (y + 2) * v (k + 1) = v (y + 1) := by
      rw [← sum_delta m (fun k => v (k + 1)) hy]
      exact sum_congr rfl fun k hk => by
        rw [rtt m v q H a (mem_range.mp hk) hy]
        by_cases h : k = y
        · rw [if_pos h, if_pos h, one_mul]
        · rw [if_neg h, if_neg h, zero_mul]
    rw [hs, r0t m v q H a hy, r1t m v q H a hy, r4t m v q H a hy]
    rw [if_neg (by omega), if_neg (by omega)]
    refine ⟨by ring, funext fun i => ?_, ?_⟩
    · obtain ⟨i, hi⟩ := i
      rcases i with _ | k
      · simp only [Fin.mk_zero, Fin.val_zero, zero_add, if_true, Pi.smul_apply, smul_eq_mul, r1t m v q H a hy]
        ring
      · have : (⟨k + 1, hi⟩ : Fin (m + 1)) ≠ 0 := by simp [Fin.ext_iff]
        simp only [this, if_false, Pi.smul_apply, smul_eq_mul, rtt m v q H a (k := k) (by omega) hy]
        ring
    · ring
  · have hs : ∑ k ∈ range m, rightEig (m + 1) v q H a (k + 2) (m + 1 + 1) * v (k + 1) = q - v 0 * v 0 := by
      rw [← hvq]
      exact sum_congr rfl fun k hk => by rw [rt4 m v q H a (mem_range.mp hk)]
    rw [hs, r04 m v q H a, r14 m v q H a, r44 m v q H a]
    rw [if_neg (by omega), if_pos rfl]
    refine ⟨by ring, funext fun i => ?_, ?_⟩
    · obtain ⟨i, hi⟩ := i
      rcases i with _ | k
      · simp only [Fin.mk_zero, Fin.val_zero, zero_add, if_true, Pi.smul_apply, smul_eq_mul, r14 m v q H a]
        linear_combination hH' + (g * q - q) * hhalf
      · have : (⟨k + 1, hi⟩ : Fin (m + 1)) ≠ 0 := by simp [Fin.ext_iff]
        simp only [this, if_false, Pi.smul_apply, smul_eq_mul, rt4 m v q H a (k := k) (by omega)]
        ring
    · linear_combination hH' * v 0 + (g * q - q) * v 0 * hhalf

/-- non-vacuity: a two-dimensional state with density 7/5, velocity (3, 4), pressure 1 and sound speed 1. -/
example : IsGas (7 / 5 : ℚ) (7 / 5) 1 (fun i : Fin (1 + 1) => (3 : ℚ) + i.val) (7 / 5, (fun i => 7 / 5 * (3 + (i.val : ℚ))), 20) ∧
    (1 * 1 : ℚ) = 7 / 5 * 1 / (7 / 5) ∧
    (15 : ℚ) = 7 / 5 / (7 / 5 - 1) * (1 / (7 / 5)) + (∑ k ∈ range (1 + 1), (3 + (k : ℚ)) * (3 + (k : ℚ))) / 2 ∧
    (15 : ℚ) = 1 * 1 / (7 / 5 - 1) + (∑ k ∈ range (1 + 1), (3 + (k : ℚ)) * (3 + (k : ℚ))) / 2 := by
  refine ⟨⟨rfl, fun i => rfl, ?_⟩, ?_, ?_, ?_⟩
  · show (20 : ℚ) = 1 / (7 / 5 - 1) + 7 / 5 * (∑ i : Fin 2, (3 + (i.val : ℚ)) * (3 + (i.val : ℚ))) / 2
    norm_num [Fin.sum_univ_two]
  · norm_num
  · norm_num [sum_range_succ]
  · norm_num [sum_range_succ]

end C40

end DNDSR.Gas
