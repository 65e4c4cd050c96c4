import Verif.Props.DiffTensors
import Mathlib.Tactic.LinearCombination

/-!
# Derivatives after a general change of variables, and of the inverse map
-/

namespace DNDSR.Jet

open Matrix Filter Topology

variable {d : Nat}

theorem pdL3 {f : (Fin d → ℝ) → ℝ} (hf : Smooth f) (i j k : Fin d) : pdL [i, j, k] f = pd k (pd j (pd i f)) :=
  pdL_perm hf (List.reverse_perm [k, j, i])

theorem pdL2 {f : (Fin d → ℝ) → ℝ} (hf : Smooth f) (i j : Fin d) : pdL [i, j] f = pd j (pd i f) :=
  pdL_perm hf (List.reverse_perm [j, i])

variable {T : Tab d} {rows : List (List (Fin d))}

theorem dim_ix1 (hT : TabOk T rows) (m : Fin d) : T.dim (T.ix [m]) 0 = m := by
  have h := hT.ix1 m
  have h1 := hT.siz1
  have h2 := hT.row1 (T.ix [m]) (by omega) (by omega)
  rw [h.2] at h2
  exact (List.cons.inj h2).1.symm

/-- The inverse map's table: rows 1 and up hold the derivatives of the inverse. `X` holds, column by column, the derivatives of the map. -/
theorem invMap_jet (hT : TabOk T rows) {F G : (Fin d → ℝ) → Fin d → ℝ} (hF : ∀ c, Smooth fun z => F z c) (hG : ∀ c, Smooth fun y => G y c)
    {y : Fin d → ℝ} (hFG : ∀ᶠ y' in 𝓝 y, F (G y') = y') {maxDiff : Nat} (hm : maxDiff ≤ 3) {X J0 : Nat → Fin d → ℝ}
    (hX : ∀ c, IsJet rows (T.siz maxDiff) (fun z => F z c) (G y) fun r => X r c) :
    ∃ J, invMap T maxDiff X J0 = .ok J ∧ (∀ c, J 0 c = J0 0 c) ∧
      ∀ c r, 1 ≤ r → r < T.siz maxDiff → J r c = pdL (rows.getD r []) (fun y => G y c) y := by
  have hs0 := hT.siz0
  have hs1 := hT.siz1
  have hmono := hT.mono
  by_cases hz : maxDiff ≤ 0
  · obtain rfl : maxDiff = 0 := by omega
    exact ⟨J0, by unfold invMap; rw [if_pos (by omega)], fun _ => rfl, fun c r h1 h2 => by omega⟩
  have hcomp : ∀ c, (fun y' => F (G y') c) =ᶠ[𝓝 y] fun y' => y' c := fun c => hFG.mono fun y' h => congrFun h c
  -- first order
  have hsz1 : T.siz 1 ≤ T.siz maxDiff := by
    have : maxDiff = 1 ∨ maxDiff = 2 ∨ maxDiff = 3 := by omega
    rcases this with rfl | rfl | rfl <;> omega
  have X1 : ∀ (m : Fin d) c, X (1 + m) c = pd m (fun z => F z c) (G y) := fun m c => by
    rw [← (hT.ix1 m).1]
    exact jet1 hT (hX c) hsz1 m
  let A : Matrix (Fin d) (Fin d) ℝ := fun i j => X (1 + i) j
  let G1 : Matrix (Fin d) (Fin d) ℝ := fun i m => pd i (fun y => G y m) y
  have hGA : G1 * A = 1 := by
    ext i c
    rw [Matrix.mul_apply]
    have h1 := congrFun (chain1 (hF c) hG i) y
    have h2 := pd_congr (hcomp c) i
    rw [pd_coord] at h2
    rw [h2] at h1
    show ∑ m : Fin d, pd i (fun y => G y m) y * X (1 + m) c = _
    simp only [X1]
    rw [← h1, Matrix.one_apply]
  have hB : A⁻¹ = G1 := Matrix.inv_eq_left_inv hGA
  have hAG : A * G1 = 1 := mul_eq_one_comm.mp hGA
  let J : Nat → Fin d → ℝ := fun r j => if h : 1 ≤ r ∧ r - 1 < d then G1 ⟨r - 1, h.2⟩ j else J0 r j
  have hJ1 : ∀ i m, J (T.ix [i]) m = pd i (fun y => G y m) y := fun i m => by
    have h := (hT.ix1 i).1
    have hi := i.isLt
    show (if h : 1 ≤ T.ix [i] ∧ T.ix [i] - 1 < d then G1 ⟨T.ix [i] - 1, h.2⟩ m else J0 _ m) = _
    rw [dif_pos (by omega)]
    have : (⟨T.ix [i] - 1, by omega⟩ : Fin d) = i := Fin.ext (by simp; omega)
    rw [this]
  have hJrow : ∀ c r, 1 ≤ r → r < T.siz 1 → J r c = pdL (rows.getD r []) (fun y => G y c) y := fun c r h1 h2 => by
    rw [hT.row1 r h1 h2]
    have h3 : r = T.ix [T.dim r 0] := by
      have ha := hT.ix1 ⟨r - 1, by omega⟩
      have hb : T.ix [(⟨r - 1, by omega⟩ : Fin d)] = r := by rw [ha.1]; simp; omega
      have hc := dim_ix1 hT ⟨r - 1, by omega⟩
      rw [hb] at hc
      rw [hc, hb]
    conv_lhs => rw [h3]
    exact hJ1 _ _
  have hJ0 : ∀ c, J 0 c = J0 0 c := fun c => dif_neg (by omega)
  by_cases h1 : maxDiff = 1
  · subst h1
    refine ⟨J, ?_, hJ0, hJrow⟩
    show (if _ then _ else _) = _
    rw [if_neg hz]
    simp only [↓reduceIte]
    rw [show (fun (i j : Fin d) => X (1 + ↑i) j) = A from rfl, hB]
  -- second order
  have hsz2 : T.siz 2 ≤ T.siz maxDiff := by
    have : maxDiff = 2 ∨ maxDiff = 3 := by omega
    rcases this with rfl | rfl <;> omega
  have X2 : ∀ m n c, X (T.ix [m, n]) c = pd n (pd m (fun z => F z c)) (G y) := fun m n c => jet2 hT (hF c) (hX c) hsz2 m n
  have hmulA : ∀ (v w : Fin d → ℝ), (∀ c, ∑ m, v m * A m c = w c) → ∀ c, ∑ j, w j * G1 j c = v c := fun v w h c => by
    have h1 : v ᵥ* A = w := funext h
    have h2 : w ᵥ* G1 = v := by rw [← h1, Matrix.vecMul_vecMul, hAG, Matrix.vecMul_one]
    exact congrFun h2 c
  let rhs2 : Nat → Fin d → ℝ := fun r j =>
    -∑ m, ∑ n, X (T.ix [m, n]) j * J (T.ix [T.dim r 0]) m * J (T.ix [T.dim r 1]) n
  let J2 : Nat → Fin d → ℝ := fun r c => if T.siz 1 ≤ r ∧ r < T.siz 2 then ∑ j, rhs2 r j * G1 j c else J r c
  have z2 : ∀ i j c, pd j (pd i (fun y' => F (G y') c)) y = 0 := fun i j c => by
    rw [pd_congr (pd_eventually (hcomp c) i) j, pd_coord, pd_const]
  have hJ2row : ∀ c r, T.siz 1 ≤ r → r < T.siz 2 → J2 r c = pd (T.dim r 1) (pd (T.dim r 0) (fun y => G y c)) y := fun c r h1 h2 => by
    show (if T.siz 1 ≤ r ∧ r < T.siz 2 then ∑ j, rhs2 r j * G1 j c else J r c) = _
    rw [if_pos ⟨h1, h2⟩]
    refine hmulA (fun m => pd (T.dim r 1) (pd (T.dim r 0) (fun y => G y m)) y) (rhs2 r) (fun c => ?_) c
    have h3 := congrFun (chain2 (hF c) hG (T.dim r 0) (T.dim r 1)) y
    rw [z2] at h3
    show ∑ m : Fin d, _ * X (1 + m) c = -∑ m, ∑ n, X (T.ix [m, n]) c * J (T.ix [T.dim r 0]) m * J (T.ix [T.dim r 1]) n
    simp only [X1, X2, hJ1]
    simp only [Finset.sum_add_distrib] at h3
    have h4 : ∀ m n, pd n (pd m (fun z => F z c)) (G y) * pd (T.dim r 0) (fun y => G y m) y * pd (T.dim r 1) (fun y => G y n) y =
        pd (T.dim r 0) (fun y => G y m) y * pd (T.dim r 1) (fun y => G y n) y * pd n (pd m (fun z => F z c)) (G y) := fun m n => by ring
    simp only [h4]
    linarith
  have hJ2low : ∀ r c, r < T.siz 1 → J2 r c = J r c := fun r c h => if_neg (by omega)
  have hJ2_1 : ∀ i m, J2 (T.ix [i]) m = pd i (fun y => G y m) y := fun i m => by
    rw [hJ2low _ _ (by have := (hT.ix1 i).1; omega)]
    exact hJ1 i m
  have hJ2_2 : ∀ i j m, J2 (T.ix [i, j]) m = pd j (pd i (fun y => G y m)) y := fun i j m => by
    have h := hT.ix2 i j
    have h' := hT.row2 _ h.1 h.2.1
    rw [hJ2row m _ h.1 h.2.1, ← pdL2 (hG m), ← pdL2 (hG m)]
    rw [← h', pdL_perm (hG m) h.2.2]
  have hJ2all : ∀ c r, 1 ≤ r → r < T.siz 2 → J2 r c = pdL (rows.getD r []) (fun y => G y c) y := fun c r h1 h2 => by
    by_cases h3 : r < T.siz 1
    · rw [hJ2low r c h3]; exact hJrow c r h1 h3
    · rw [hJ2row c r (by omega) h2, hT.row2 r (by omega) h2, pdL2 (hG c)]
  by_cases h2 : maxDiff = 2
  · subst h2
    refine ⟨J2, ?_, fun c => (hJ2low 0 c (by omega)).trans (hJ0 c), hJ2all⟩
    show (if _ then _ else _) = _
    rw [if_neg hz]
    simp only [OfNat.ofNat_ne_one, ↓reduceIte]
    rw [show (fun (i j : Fin d) => X (1 + ↑i) j) = A from rfl, hB]
  -- third order
  obtain rfl : maxDiff = 3 := by omega
  have X3 : ∀ m n p c, X (T.ix [m, n, p]) c = pd p (pd n (pd m (fun z => F z c))) (G y) :=
    fun m n p c => jet3 hT (hF c) (hX c) (Nat.le_refl _) m n p
  let rhs3 : Nat → Fin d → ℝ := fun r j =>
    -(∑ m, ∑ n, (X (T.ix [m, n]) j * J2 (T.ix [T.dim r 0, T.dim r 1]) m * J2 (T.ix [T.dim r 2]) n +
        X (T.ix [m, n]) j * J2 (T.ix [T.dim r 1, T.dim r 2]) m * J2 (T.ix [T.dim r 0]) n +
        X (T.ix [m, n]) j * J2 (T.ix [T.dim r 0, T.dim r 2]) m * J2 (T.ix [T.dim r 1]) n)) -
      ∑ m, ∑ n, ∑ p, X (T.ix [m, n, p]) j * J2 (T.ix [T.dim r 0]) m * J2 (T.ix [T.dim r 1]) n * J2 (T.ix [T.dim r 2]) p
  let J3 : Nat → Fin d → ℝ := fun r c => if T.siz 2 ≤ r ∧ r < T.siz 3 then ∑ j, rhs3 r j * G1 j c else J2 r c
  have z3 : ∀ i j k c, pd k (pd j (pd i (fun y' => F (G y') c))) y = 0 := fun i j k c => by
    rw [pd_congr (pd_eventually (pd_eventually (hcomp c) i) j) k, pd_coord, pd_const, pd_const]
  have hJ3row : ∀ c r, T.siz 2 ≤ r → r < T.siz 3 →
      J3 r c = pd (T.dim r 2) (pd (T.dim r 1) (pd (T.dim r 0) (fun y => G y c))) y := fun c r h1 h2 => by
    show (if T.siz 2 ≤ r ∧ r < T.siz 3 then ∑ j, rhs3 r j * G1 j c else J2 r c) = _
    rw [if_pos ⟨h1, h2⟩]
    refine hmulA (fun m => pd (T.dim r 2) (pd (T.dim r 1) (pd (T.dim r 0) (fun y => G y m))) y) (rhs3 r) (fun c => ?_) c
    have h3 := congrFun (chain3 (hF c) hG (T.dim r 0) (T.dim r 1) (T.dim r 2)) y
    rw [z3] at h3
    show ∑ m : Fin d, _ * X (1 + m) c = -(∑ m, ∑ n, (X (T.ix [m, n]) c * J2 (T.ix [T.dim r 0, T.dim r 1]) m * J2 (T.ix [T.dim r 2]) n +
        X (T.ix [m, n]) c * J2 (T.ix [T.dim r 1, T.dim r 2]) m * J2 (T.ix [T.dim r 0]) n +
        X (T.ix [m, n]) c * J2 (T.ix [T.dim r 0, T.dim r 2]) m * J2 (T.ix [T.dim r 1]) n)) -
      ∑ m, ∑ n, ∑ p, X (T.ix [m, n, p]) c * J2 (T.ix [T.dim r 0]) m * J2 (T.ix [T.dim r 1]) n * J2 (T.ix [T.dim r 2]) p
    simp only [X1, X2, X3, hJ2_1, hJ2_2]
    generalize T.dim r 0 = i at h3 ⊢
    generalize T.dim r 1 = k at h3 ⊢
    generalize T.dim r 2 = l at h3 ⊢
    simp only [Finset.sum_add_distrib, add_mul] at h3 ⊢
    have sw : ∑ m, ∑ n, pd n (pd m fun z => F z c) (G y) * pd l (pd k fun y => G y m) y * pd i (fun y => G y n) y =
        ∑ m, ∑ n, pd i (fun x => G x m) y * pd l (pd k fun x => G x n) y * pd n (pd m fun z => F z c) (G y) := by
      rw [Finset.sum_comm]
      refine Finset.sum_congr rfl fun m _ => Finset.sum_congr rfl fun n _ => ?_
      rw [pd_comm (hF c) m n]
      ring
    have t1 : ∑ m, ∑ n, pd n (pd m fun z => F z c) (G y) * pd k (pd i fun y => G y m) y * pd l (fun y => G y n) y =
        ∑ m, ∑ n, pd k (pd i fun x => G x m) y * pd l (fun x => G x n) y * pd n (pd m fun z => F z c) (G y) :=
      Finset.sum_congr rfl fun m _ => Finset.sum_congr rfl fun n _ => by ring
    have t2 : ∑ m, ∑ n, pd n (pd m fun z => F z c) (G y) * pd l (pd i fun y => G y m) y * pd k (fun y => G y n) y =
        ∑ m, ∑ n, pd l (pd i fun x => G x m) y * pd k (fun x => G x n) y * pd n (pd m fun z => F z c) (G y) :=
      Finset.sum_congr rfl fun m _ => Finset.sum_congr rfl fun n _ => by ring
    have t3 : ∑ m, ∑ n, ∑ p, pd p (pd n (pd m fun z => F z c)) (G y) * pd i (fun y => G y m) y * pd k (fun y => G y n) y *
          pd l (fun y => G y p) y =
        ∑ m, ∑ n, ∑ p, pd i (fun x => G x m) y * pd k (fun x => G x n) y * pd l (fun x => G x p) y *
          pd p (pd n (pd m fun z => F z c)) (G y) :=
      Finset.sum_congr rfl fun m _ => Finset.sum_congr rfl fun n _ => Finset.sum_congr rfl fun p _ => by ring
    rw [sw, t1, t2, t3]
    linarith
  have hJ3low : ∀ r c, r < T.siz 2 → J3 r c = J2 r c := fun r c h => if_neg (by omega)
  refine ⟨J3, ?_, fun c => (hJ3low 0 c (by omega)).trans ((hJ2low 0 c (by omega)).trans (hJ0 c)), fun c r h1 h2 => ?_⟩
  · show (if _ then _ else _) = _
    rw [if_neg hz]
    simp only [OfNat.ofNat_ne_one, Nat.reduceEqDiff, ↓reduceIte]
    rw [show (fun (i j : Fin d) => X (1 + ↑i) j) = A from rfl, hB]
  · by_cases h3 : r < T.siz 2
    · rw [hJ3low r c h3]; exact hJ2all c r h1 h3
    · rw [hJ3row c r (by omega) h2, hT.row3 r (by omega) h2, pdL3 (hG c)]

/-- **C65** (general map, what holds) The conversion for a general change of variables `ξ` yields the derivatives of `u ∘ ξ` up to the
first order, and beyond wherever the higher derivatives of `ξ` vanish at the point. Not proved, because false
(`fullMap_second_order_wrong`): the same for a map with second derivatives. -/
theorem fullMap_jet_partial (hT : TabOk T rows) (ho : ∀ k, k ≤ 3 → ndiff2order d (T.siz k) = some k) {u : (Fin d → ℝ) → ℝ} (hu : Smooth u)
    {ξ : (Fin d → ℝ) → Fin d → ℝ} (hξ : ∀ m, Smooth fun x => ξ x m) {x : Fin d → ℝ} {order : Nat} (hk : order ≤ 3)
    {J : Nat → Fin d → ℝ} {c : Nat → ℝ} (hc : IsJet rows (T.siz order) u (ξ x) c)
    (hJ : ∀ m, IsJet rows (T.siz order) (fun x => ξ x m) x fun r => J r m)
    (h2 : 2 ≤ order → ∀ i j m, pd j (pd i fun x => ξ x m) x = 0)
    (h3 : 3 ≤ order → ∀ i j k m, pd k (pd j (pd i fun x => ξ x m)) x = 0) :
    ∃ c', fullMap T (T.siz order) J c = .ok c' ∧ IsJet rows (T.siz order) (fun x => u (ξ x)) x c' := by
  have hs0 := hT.siz0
  have hs1 := hT.siz1
  have hmono := hT.mono
  have hcomp : Smooth fun x => u (ξ x) := hu.comp hξ
  unfold fullMap
  rw [ho order hk]
  simp only
  by_cases k0 : order = 0
  · subst k0
    refine ⟨c, by rw [if_pos rfl], fun r hr => ?_⟩
    obtain rfl : r = 0 := by omega
    rw [hc 0 hr, hT.row0]
    rfl
  rw [if_neg k0]
  have hsz1 : T.siz 1 ≤ T.siz order := by
    have : order = 1 ∨ order = 2 ∨ order = 3 := by omega
    rcases this with rfl | rfl | rfl <;> omega
  have J1 : ∀ i m, J (T.ix [i]) m = pd i (fun x => ξ x m) x := fun i m => jet1 hT (hJ m) hsz1 i
  have c1 : ∀ m, c (T.ix [m]) = pd m u (ξ x) := jet1 hT hc hsz1
  let u1 : Nat → ℝ := fun r => if 1 ≤ r ∧ r < T.siz 1 then ∑ m, J (T.ix [T.dim r 0]) m * c (T.ix [m]) else c r
  have hu1 : ∀ r, r < T.siz 1 → u1 r = pdL (rows.getD r []) (fun x => u (ξ x)) x := fun r hr => by
    by_cases h : 1 ≤ r
    · show (if 1 ≤ r ∧ r < T.siz 1 then _ else _) = _
      rw [if_pos ⟨h, hr⟩, hT.row1 r h hr]
      show _ = pd (T.dim r 0) (fun x => u (ξ x)) x
      rw [chain1 hu hξ]
      simp only [J1, c1]
    · obtain rfl : r = 0 := by omega
      show (if 1 ≤ 0 ∧ _ then _ else c 0) = _
      rw [if_neg (by omega), hc 0 (by omega), hT.row0]
      rfl
  have u1hi : ∀ r, T.siz 1 ≤ r → u1 r = c r := fun r h => if_neg (by omega)
  by_cases k1 : order = 1
  · subst k1
    exact ⟨u1, by rw [if_pos rfl], hu1⟩
  rw [if_neg k1]
  have hsz2 : T.siz 2 ≤ T.siz order := by
    have : order = 2 ∨ order = 3 := by omega
    rcases this with rfl | rfl <;> omega
  have J2 : ∀ i j m, J (T.ix [i, j]) m = 0 := fun i j m => by rw [jet2 hT (hξ m) (hJ m) hsz2, h2 (by omega)]
  have c2 : ∀ m n, c (T.ix [m, n]) = pd n (pd m u) (ξ x) := jet2 hT hu hc hsz2
  let u2 : Nat → ℝ := fun r => if T.siz 1 ≤ r ∧ r < T.siz 2 then
      (∑ m, J (T.ix [T.dim r 0, T.dim r 1]) m * u1 (T.ix [m])) +
        ∑ m, ∑ n, J (T.ix [T.dim r 0]) m * J (T.ix [T.dim r 1]) n * u1 (T.ix [m, n]) else u1 r
  have hu2 : ∀ r, r < T.siz 2 → u2 r = pdL (rows.getD r []) (fun x => u (ξ x)) x := fun r hr => by
    by_cases h : T.siz 1 ≤ r
    · show (if T.siz 1 ≤ r ∧ r < T.siz 2 then _ else _) = _
      rw [if_pos ⟨h, hr⟩, hT.row2 r h hr, pdL2 hcomp, chain2 hu hξ]
      simp only [J2, h2 (by omega), zero_mul, Finset.sum_const_zero, zero_add]
      refine Finset.sum_congr rfl fun m _ => Finset.sum_congr rfl fun n _ => ?_
      rw [u1hi _ (hT.ix2 m n).1, c2, J1, J1]
    · show (if T.siz 1 ≤ r ∧ r < T.siz 2 then _ else u1 r) = _
      rw [if_neg (by omega)]
      exact hu1 r (by omega)
  have u2hi : ∀ r, T.siz 2 ≤ r → u2 r = c r := fun r h => (if_neg (by omega)).trans (u1hi r (by omega))
  by_cases k2 : order = 2
  · subst k2
    exact ⟨u2, by rw [if_pos rfl], hu2⟩
  rw [if_neg k2]
  obtain rfl : order = 3 := by omega
  have J3 : ∀ i j k m, J (T.ix [i, j, k]) m = 0 := fun i j k m => by rw [jet3 hT (hξ m) (hJ m) (Nat.le_refl _), h3 (by omega)]
  have c3 : ∀ m n p, c (T.ix [m, n, p]) = pd p (pd n (pd m u)) (ξ x) := jet3 hT hu hc (Nat.le_refl _)
  refine ⟨_, rfl, fun r hr => ?_⟩
  by_cases h : T.siz 2 ≤ r
  · rw [if_pos ⟨h, hr⟩, hT.row3 r h hr, pdL3 hcomp, chain3 hu hξ]
    simp only [J2, J3, h2 (by omega), h3 (by omega), zero_mul, mul_zero, Finset.sum_const_zero, zero_add, add_zero]
    refine Finset.sum_congr rfl fun m _ => Finset.sum_congr rfl fun n _ => Finset.sum_congr rfl fun p _ => ?_
    rw [if_neg (by have := (hT.ix3 m n p).1; omega), if_neg (by have := (hT.ix3 m n p).1; omega), c3, J1, J1, J1]
  · rw [if_neg (by omega)]
    exact hu2 r (by omega)

/-- The tables of both dimensions have the number of rows of each order. -/
theorem tab_orders : (∀ k, k ≤ 3 → ndiff2order 2 (tab2.siz k) = some k) ∧ (∀ k, k ≤ 3 → ndiff2order 3 (tab3.siz k) = some k) := by
  constructor <;> intro k hk <;> interval_cases k <;> rfl

/-- **C65** (general map, refuted) The conversion for a general change of variables is wrong from the second order on: the first
derivatives it reads have already been overwritten by the converted ones. Here `u` is the first coordinate and `ξ` squares it. -/
theorem fullMap_second_order_wrong : ∃ (u : (Fin 2 → ℝ) → ℝ) (ξ : (Fin 2 → ℝ) → Fin 2 → ℝ) (x : Fin 2 → ℝ) (J : Nat → Fin 2 → ℝ)
    (c c' : Nat → ℝ), Smooth u ∧ (∀ m, Smooth fun x => ξ x m) ∧ IsJet rows2 6 u (ξ x) c ∧ (∀ m, IsJet rows2 6 (fun x => ξ x m) x fun r => J r m) ∧
    fullMap tab2 6 J c = .ok c' ∧ pdL [0, 0] (fun x => u (ξ x)) x = 2 ∧ c' 3 = 4 := by
  let ξ : (Fin 2 → ℝ) → Fin 2 → ℝ := fun x => ![x 0 * x 0, x 1]
  let u : (Fin 2 → ℝ) → ℝ := fun z => z 0
  let x : Fin 2 → ℝ := fun _ => 1
  have sm : ∀ i : Fin 2, Smooth fun x : Fin 2 → ℝ => x i := fun i => contDiff_apply ℝ ℝ i
  have dc : ∀ i : Fin 2, Differentiable ℝ fun x : Fin 2 → ℝ => x i := fun i => (sm i).differentiable
  have hξ0 : (fun x => ξ x 0) = fun x => x 0 * x 0 := rfl
  have hξ1 : (fun x => ξ x 1) = fun x => x 1 := rfl
  have p00 : pd 0 (fun x : Fin 2 → ℝ => x 0 * x 0) = fun x => 2 * x 0 := by
    rw [pd_mul (dc 0) (dc 0), pd_coord]; funext x; simp; ring
  have p000 : pd 0 (pd 0 (fun x : Fin 2 → ℝ => x 0 * x 0)) = fun _ => 2 := by
    rw [p00, pd_const_mul, pd_coord]; funext x; simp
  let J : Nat → Fin 2 → ℝ := fun r m => pdL (rows2.getD r []) (fun x => ξ x m) x
  let c : Nat → ℝ := fun r => pdL (rows2.getD r []) u (ξ x)
  refine ⟨u, ξ, x, J, c, _, sm 0, fun m => ?_, fun k _ => rfl, fun m k _ => rfl, rfl, ?_, ?_⟩
  · fin_cases m
    · exact (sm 0).mul (sm 0)
    · exact sm 1
  · show pd 0 (pd 0 (fun x : Fin 2 → ℝ => x 0 * x 0)) x = 2
    rw [p000]
  · have j10 : J 1 0 = 2 := by show pd 0 (fun x => ξ x 0) x = 2; rw [hξ0, p00]; simp [x]
    have j11 : J 1 1 = 0 := by show pd 0 (fun x => ξ x 1) x = 0; rw [hξ1, pd_coord]; simp
    have j30 : J 3 0 = 2 := by show pd 0 (pd 0 (fun x => ξ x 0)) x = 2; rw [hξ0, p000]
    have j31 : J 3 1 = 0 := by show pd 0 (pd 0 (fun x => ξ x 1)) x = 0; rw [hξ1, pd_coord, pd_const]
    have c1 : c 1 = 1 := by show pd 0 (fun x : Fin 2 → ℝ => x 0) _ = 1; rw [pd_coord]; simp
    have c2 : c 2 = 0 := by show pd 1 (fun x : Fin 2 → ℝ => x 0) _ = 0; rw [pd_coord]; simp
    have c3 : c 3 = 0 := by show pd 0 (pd 0 (fun x : Fin 2 → ℝ => x 0)) _ = 0; rw [pd_coord, pd_const]
    have i0 : tab2.ix [0] = 1 := by decide
    have i1 : tab2.ix [1] = 2 := by decide
    have i00 : tab2.ix [0, 0] = 3 := by decide
    have i01 : tab2.ix [0, 1] = 4 := by decide
    have i10 : tab2.ix [1, 0] = 4 := by decide
    have i11 : tab2.ix [1, 1] = 5 := by decide
    have d0 : tab2.dim 3 0 = 0 := by decide
    have d1 : tab2.dim 3 1 = 0 := by decide
    have d2 : tab2.dim 1 0 = 0 := by decide
    have d3 : tab2.dim 2 0 = 1 := by decide
    have s1 : tab2.siz 1 = 3 := rfl
    have s2 : tab2.siz 2 = 6 := rfl
    clear_value J c
    simp only [s1, s2, d0, d1, i00]
    simp only [Fin.sum_univ_two, i0, i1, i00, i01, i10, i11, d2, d3, j10, j11, j30, j31, c1, c2, c3]
    norm_num [c3]

/-- The inner product of derivative tables, spelled out: rank 1, 2 and 3 in two dimensions. -/
theorem normSym2_contract (Le Ri : Nat → ℝ) :
    normSym2 0 1 Le Ri = .ok (Le 0 * Ri 0) ∧
    normSym2 1 1 Le Ri = .ok (∑ i : Fin 2, Le i * Ri i) ∧
    normSym2 2 1 Le Ri = .ok (∑ i, ∑ j, Le (pack22 i j) * Ri (pack22 i j)) ∧
    normSym2 3 1 Le Ri = .ok (∑ i, ∑ j, ∑ k, Le (pack23 i j k) * Ri (pack23 i j k)) := by
  refine ⟨?_, ?_, ?_, ?_⟩ <;>
  · simp only [normSym2, Res.ok.injEq, Fin.sum_univ_succ, Fin.sum_univ_zero, pow_one]
    simp [nCombs2, pack22, pack23]
    try ring

/-- Rank 1, 2 and 3 in three dimensions. -/
theorem normSym3_contract (Le Ri : Nat → ℝ) :
    normSym3 0 1 Le Ri = .ok (Le 0 * Ri 0) ∧
    normSym3 1 1 Le Ri = .ok (∑ i : Fin 3, Le i * Ri i) ∧
    normSym3 2 1 Le Ri = .ok (∑ i, ∑ j, Le (pack32 i j) * Ri (pack32 i j)) ∧
    normSym3 3 1 Le Ri = .ok (∑ i, ∑ j, ∑ k, Le (pack33 i j k) * Ri (pack33 i j k)) := by
  refine ⟨?_, ?_, ?_, ?_⟩ <;>
  · simp only [normSym3, Res.ok.injEq, Fin.sum_univ_succ, Fin.sum_univ_zero, pow_one]
    simp [nCombs3, pack32, pack33]
    try ring

/-- **C66** (two dimensions) Fed with the derivatives of order `k` of two functions at points, the inner product of order `k` is the sum,
over all `k` directions of differentiation, of the products of the derivatives. -/
theorem normSym2_jet {f g : (Fin 2 → ℝ) → ℝ} (hf : Smooth f) (hg : Smooth g) {x y : Fin 2 → ℝ} {c c' : Nat → ℝ}
    (hc : IsJet rows2 10 f x c) (hc' : IsJet rows2 10 g y c') :
    normSym2 0 1 c c' = .ok (f x * g y) ∧
    normSym2 1 1 (fun k => c (1 + k)) (fun k => c' (1 + k)) = .ok (∑ i, pd i f x * pd i g y) ∧
    normSym2 2 1 (fun k => c (3 + k)) (fun k => c' (3 + k)) = .ok (∑ i, ∑ j, pd j (pd i f) x * pd j (pd i g) y) ∧
    normSym2 3 1 (fun k => c (6 + k)) (fun k => c' (6 + k)) =
      .ok (∑ i, ∑ j, ∑ k, pd k (pd j (pd i f)) x * pd k (pd j (pd i g)) y) := by
  have s1 : tab2.siz 1 ≤ 10 := by decide
  have s2 : tab2.siz 2 ≤ 10 := by decide
  have s3 : tab2.siz 3 ≤ 10 := by decide
  have i1 : ∀ i : Fin 2, 1 + (i : Nat) = tab2.ix [i] := by decide
  refine ⟨?_, ?_, ?_, ?_⟩
  · rw [(normSym2_contract c c').1, hc 0 (by omega), hc' 0 (by omega)]
    rfl
  · rw [(normSym2_contract _ _).2.1]
    simp only [i1, jet1 tab2_ok hc s1, jet1 tab2_ok hc' s1]
  · rw [(normSym2_contract _ _).2.2.1]
    simp only [pack22_eq, jet2 tab2_ok hf hc s2, jet2 tab2_ok hg hc' s2]
  · rw [(normSym2_contract _ _).2.2.2]
    simp only [pack23_eq, jet3 tab2_ok hf hc s3, jet3 tab2_ok hg hc' s3]

/-- **C66** (three dimensions) Fed with the derivatives of order `k` of two functions at points, the inner product of order `k` is the sum,
over all `k` directions of differentiation, of the products of the derivatives. -/
theorem normSym3_jet {f g : (Fin 3 → ℝ) → ℝ} (hf : Smooth f) (hg : Smooth g) {x y : Fin 3 → ℝ} {c c' : Nat → ℝ}
    (hc : IsJet rows3 20 f x c) (hc' : IsJet rows3 20 g y c') :
    normSym3 0 1 c c' = .ok (f x * g y) ∧
    normSym3 1 1 (fun k => c (1 + k)) (fun k => c' (1 + k)) = .ok (∑ i, pd i f x * pd i g y) ∧
    normSym3 2 1 (fun k => c (4 + k)) (fun k => c' (4 + k)) = .ok (∑ i, ∑ j, pd j (pd i f) x * pd j (pd i g) y) ∧
    normSym3 3 1 (fun k => c (10 + k)) (fun k => c' (10 + k)) =
      .ok (∑ i, ∑ j, ∑ k, pd k (pd j (pd i f)) x * pd k (pd j (pd i g)) y) := by
  have s1 : tab3.siz 1 ≤ 20 := by decide
  have s2 : tab3.siz 2 ≤ 20 := by decide
  have s3 : tab3.siz 3 ≤ 20 := by decide
  have i1 : ∀ i : Fin 3, 1 + (i : Nat) = tab3.ix [i] := by decide
  refine ⟨?_, ?_, ?_, ?_⟩
  · rw [(normSym3_contract c c').1, hc 0 (by omega), hc' 0 (by omega)]
    rfl
  · rw [(normSym3_contract _ _).2.1]
    simp only [i1, jet1 tab3_ok hc s1, jet1 tab3_ok hc' s1]
  · rw [(normSym3_contract _ _).2.2.1]
    simp only [pack32_eq, jet2 tab3_ok hf hc s2, jet2 tab3_ok hg hc' s2]
  · rw [(normSym3_contract _ _).2.2.2]
    simp only [pack33_eq, jet3 tab3_ok hf hc s3, jet3 tab3_ok hg hc' s3]

theorem rigid_sum {D : Matrix (Fin d) (Fin d) ℝ} (hD : Dᵀ * D = 1) (v w : Fin d → ℝ) :
    ∑ i, (∑ m, D i m * v m) * (∑ m, D i m * w m) = ∑ m, v m * w m := by
  have h : ∀ m p, ∑ i, D i m * D i p = if m = p then 1 else 0 := fun m p => by
    have := congrFun (congrFun hD m) p
    rw [Matrix.mul_apply] at this
    simpa [Matrix.transpose_apply, Matrix.one_apply] using this
  simp only [Finset.sum_mul_sum]
  rw [Finset.sum_comm]
  refine Finset.sum_congr rfl fun m _ => ?_
  rw [Finset.sum_comm]
  have e : ∀ p, ∑ i, D i m * v m * (D i p * w p) = (if m = p then 1 else 0) * (v m * w p) := fun p => by
    rw [← h m p, Finset.sum_mul]
    exact Finset.sum_congr rfl fun i _ => by ring
  rw [Finset.sum_congr rfl fun p _ => e p]
  simp

/-- **C66** (orientation) The sums do not depend on the orthonormal frame: turning both functions by the same orthogonal matrix leaves
them unchanged. -/
theorem contract_rigid {D : Matrix (Fin d) (Fin d) ℝ} (hD : Dᵀ * D = 1) (b : Fin d → ℝ) {f g : (Fin d → ℝ) → ℝ} (hf : Smooth f) (hg : Smooth g)
    (x y : Fin d → ℝ) :
    (∑ i, pd i (fun x => f (affine D b x)) x * pd i (fun x => g (affine D b x)) y =
      ∑ i, pd i f (affine D b x) * pd i g (affine D b y)) ∧
    (∑ i, ∑ j, pd j (pd i (fun x => f (affine D b x))) x * pd j (pd i (fun x => g (affine D b x))) y =
      ∑ i, ∑ j, pd j (pd i f) (affine D b x) * pd j (pd i g) (affine D b y)) ∧
    (∑ i, ∑ j, ∑ k, pd k (pd j (pd i (fun x => f (affine D b x)))) x * pd k (pd j (pd i (fun x => g (affine D b x)))) y =
      ∑ i, ∑ j, ∑ k, pd k (pd j (pd i f)) (affine D b x) * pd k (pd j (pd i g)) (affine D b y)) := by
  have r2 : ∀ (A B : Fin d → Fin d → ℝ), ∑ i, ∑ j, (∑ m, ∑ p, D i m * D j p * A m p) * (∑ m, ∑ p, D i m * D j p * B m p) =
      ∑ m, ∑ p, A m p * B m p := fun A B => by
    have e : ∀ (A : Fin d → Fin d → ℝ) i j, ∑ m, ∑ p, D i m * D j p * A m p = ∑ m, D i m * ∑ p, D j p * A m p := fun A i j =>
      Finset.sum_congr rfl fun m _ => by rw [Finset.mul_sum]; exact Finset.sum_congr rfl fun p _ => by ring
    simp only [e]
    rw [Finset.sum_comm]
    simp only [rigid_sum hD]
    rw [Finset.sum_comm]
    simp only [rigid_sum hD]
  refine ⟨?_, ?_, ?_⟩
  · simp only [affine1 hf, affine1 hg, rigid_sum hD]
  · simp only [affine2 hf, affine2 hg]
    exact r2 _ _
  · simp only [affine3 hf, affine3 hg]
    have e : ∀ (A : Fin d → Fin d → Fin d → ℝ) i j k, ∑ m, ∑ p, ∑ q, D i m * D j p * D k q * A m p q =
        ∑ q, D k q * ∑ m, ∑ p, D i m * D j p * A m p q := fun A i j k => by
      simp only [Finset.mul_sum]
      rw [Finset.sum_congr rfl fun m _ => Finset.sum_comm, Finset.sum_comm]
      exact Finset.sum_congr rfl fun q _ => Finset.sum_congr rfl fun m _ => Finset.sum_congr rfl fun p _ => by ring
    rw [Finset.sum_congr rfl fun i _ => Finset.sum_congr rfl fun j _ => Finset.sum_congr rfl fun k _ => by
      rw [e (fun m p q => pd q (pd p (pd m f)) (affine D b x)), e (fun m p q => pd q (pd p (pd m g)) (affine D b y))]]
    simp only [rigid_sum hD]
    rw [Finset.sum_congr rfl fun i _ => Finset.sum_comm, Finset.sum_comm]
    simp only [r2]
    rw [Finset.sum_comm]
    exact Finset.sum_congr rfl fun m _ => Finset.sum_comm

/-- The map that doubles every coordinate has an inverse as the theorem on inverse maps asks for. -/
example : ∃ F G : (Fin 3 → ℝ) → Fin 3 → ℝ, (∀ c, Smooth fun z => F z c) ∧ (∀ c, Smooth fun y => G y c) ∧ (∀ y, F (G y) = y) ∧
    ∀ c, pd c (fun z => F z c) = fun _ => 2 := by
  refine ⟨fun z c => 2 * z c, fun y c => 1 / 2 * y c, fun c => (smooth_const 2).mul (contDiff_apply ℝ ℝ c),
    fun c => (smooth_const (1 / 2)).mul (contDiff_apply ℝ ℝ c), fun y => by funext c; ring, fun c => ?_⟩
  rw [pd_const_mul, pd_coord]
  simp

/-- A rigid turn of the plane, as the theorem on the orientation asks for. -/
example : (!![0, -1; 1, 0] : Matrix (Fin 2) (Fin 2) ℝ)ᵀ * !![0, -1; 1, 0] = 1 := by
  ext a b; fin_cases a <;> fin_cases b <;> simp [Matrix.mul_apply, Fin.sum_univ_two]

end DNDSR.Jet
