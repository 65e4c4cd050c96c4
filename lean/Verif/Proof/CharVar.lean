import Verif.Spec.CharVar
import Verif.Props.Gas
import Verif.Proof.TimeStepPos
import Mathlib.LinearAlgebra.Matrix.NonsingularInverse
import Mathlib.Tactic.FinCases
import Mathlib.Tactic.Linarith

/-!
# Frames and turned eigenvectors, for C100
-/

namespace DNDSR.CharVar

open DNDSR.Gas
open Matrix

variable {d e : Nat}

/-- the vector with components `x` in the frame -/
noncomputable def turn (b : Fin d → Fin d → ℝ) (x : Fin d → ℝ) : Fin d → ℝ := fun i => ∑ k, b k i * x k

/-- the components of a vector in the frame -/
noncomputable def comps (b : Fin d → Fin d → ℝ) (x : Fin d → ℝ) : Fin d → ℝ := fun k => ∑ i, b k i * x i

/-- the state with the momentum turned -/
noncomputable def turnSt (b : Fin d → Fin d → ℝ) (U : St ℝ d) : St ℝ d := (U.1, turn b U.2.1, U.2.2)

theorem cols {b : Fin d → Fin d → ℝ} (hb : Orthonormal b) (i j : Fin d) : ∑ k, b k i * b k j = if i = j then 1 else 0 := by
  have h : Matrix.of b * (Matrix.of b)ᵀ = 1 := by
    ext k l
    rw [Matrix.mul_apply, Matrix.one_apply]
    exact hb k l
  have h' := mul_eq_one_comm.1 h
  have := congrFun (congrFun h' i) j
  rw [Matrix.mul_apply, Matrix.one_apply] at this
  exact this

theorem turn_comps {b : Fin d → Fin d → ℝ} (hb : Orthonormal b) (x : Fin d → ℝ) : turn b (comps b x) = x := by
  funext i
  simp only [turn, comps, Finset.mul_sum]
  rw [Finset.sum_comm]
  have : ∀ j, ∑ k, b k i * (b k j * x j) = (if i = j then 1 else 0) * x j := fun j => by
    rw [← cols hb i j, Finset.sum_mul]
    exact Finset.sum_congr rfl fun k _ => by ring
  simp [this]

theorem dot_turn {b : Fin d → Fin d → ℝ} (hb : Orthonormal b) (x y : Fin d → ℝ) : ∑ i, turn b x i * turn b y i = ∑ k, x k * y k := by
  simp only [turn, Finset.sum_mul_sum]
  rw [Finset.sum_comm]
  have : ∀ k, ∑ i, ∑ l, b k i * x k * (b l i * y l) = x k * y k := fun k => by
    rw [Finset.sum_comm]
    have : ∀ l, ∑ i, b k i * x k * (b l i * y l) = (if k = l then 1 else 0) * (x k * y l) := fun l => by
      rw [← hb k l, Finset.sum_mul]
      exact Finset.sum_congr rfl fun i _ => by ring
    simp [this]
  exact Finset.sum_congr rfl fun k _ => this k

theorem turn_add (b : Fin d → Fin d → ℝ) (x y : Fin d → ℝ) : turn b (x + y) = turn b x + turn b y := by
  funext i; simp only [turn, Pi.add_apply, mul_add, Finset.sum_add_distrib]

theorem turn_smul (b : Fin d → Fin d → ℝ) (c : ℝ) (x : Fin d → ℝ) : turn b (c • x) = c • turn b x := by
  funext i; simp only [turn, Pi.smul_apply, smul_eq_mul, Finset.mul_sum]; exact Finset.sum_congr rfl fun k _ => by ring

theorem turn_sub (b : Fin d → Fin d → ℝ) (x y : Fin d → ℝ) : turn b (x - y) = turn b x - turn b y := by
  funext i; simp only [turn, Pi.sub_apply, mul_sub, Finset.sum_sub_distrib]

theorem turnSt_smul (b : Fin d → Fin d → ℝ) (c : ℝ) (U : St ℝ d) : turnSt b (c • U) = c • turnSt b U :=
  Prod.ext rfl (Prod.ext (turn_smul b c U.2.1) rfl)

theorem turnSt_sub (b : Fin d → Fin d → ℝ) (U V : St ℝ d) : turnSt b (U - V) = turnSt b U - turnSt b V :=
  Prod.ext rfl (Prod.ext (turn_sub b U.2.1 V.2.1) rfl)

theorem dot_turn' {b : Fin d → Fin d → ℝ} (hb : Orthonormal b) (x y : Fin d → ℝ) : turn b x ⬝ᵥ turn b y = x ⬝ᵥ y := dot_turn hb x y

/-- turning everything turns the derivative of the flux -/
theorem jacobian_turn {b : Fin d → Fin d → ℝ} (hb : Orthonormal b) (g p : ℝ) (U dU : St ℝ d) (v vg n : Fin d → ℝ) :
    jacobian g (turnSt b U) p (turn b v) (turn b vg) (turn b n) (turnSt b dU) = turnSt b (jacobian g U p v vg n dU) := by
  have e0 : ∀ W : St ℝ d, (turnSt b W).c0 = W.c0 := fun _ => rfl
  have ev : ∀ W : St ℝ d, (turnSt b W).cv = turn b W.cv := fun _ => rfl
  have e4 : ∀ W : St ℝ d, (turnSt b W).c4 = W.c4 := fun _ => rfl
  have hi : uIncrement (turnSt b U) (turnSt b dU) (turn b v) g = (turn b (uIncrement U dU v g).1, (uIncrement U dU v g).2) := by
    simp only [uIncrement, e0, ev, e4]
    rw [← turn_smul, ← turn_smul, ← turn_sub, ← turn_smul, dot_turn' hb, dot_turn' hb]
  unfold jacobian
  rw [hi]
  simp only [fluxIncrement, e0, ev, e4, dot_turn' hb]
  rw [turnSt_sub, turnSt_smul]
  refine congrArg (· - _) (Prod.ext rfl (Prod.ext ?_ rfl))
  show _ = turn b _
  rw [turn_add, turn_add, turn_smul, turn_smul, turn_smul]

/-! ## The frame -/

theorem len3_sq (v : Fin 3 → ℝ) : Rec.len3 v ^ 2 = v 0 ^ 2 + v 1 ^ 2 + v 2 ^ 2 := Real.sq_sqrt (by positivity)

theorem normalized_of {v : Fin 3 → ℝ} (h : 0 < v 0 ^ 2 + v 1 ^ 2 + v 2 ^ 2) :
    ∃ l, 0 < l ∧ l ^ 2 = v 0 ^ 2 + v 1 ^ 2 + v 2 ^ 2 ∧ Rec.normalized3 v = fun i => v i / l := by
  have hl : 0 < Rec.len3 v := Real.sqrt_pos.2 h
  exact ⟨Rec.len3 v, hl, len3_sq v, by unfold Rec.normalized3; rw [if_pos hl]⟩

theorem normalized_unit {v : Fin 3 → ℝ} (h : v 0 ^ 2 + v 1 ^ 2 + v 2 ^ 2 = 1) : Rec.normalized3 v = v := by
  have hl : Rec.len3 v = 1 := by unfold Rec.len3; rw [h, Real.sqrt_one]
  unfold Rec.normalized3
  rw [hl, if_pos one_pos]
  funext i; rw [div_one]

/-- a unit tangent completes to a frame -/
theorem frame_of_tangent {n t : Fin 3 → ℝ} (hn : n 0 * n 0 + n 1 * n 1 + n 2 * n 2 = 1) (ht : t 0 * t 0 + t 1 * t 1 + t 2 * t 2 = 1)
    (hnt : n 0 * t 0 + n 1 * t 1 + n 2 * t 2 = 0) : Orthonormal (![n, t, Rec.normalized3 (Rec.cross3 n t)] : Fin 3 → Fin 3 → ℝ) := by
  have hc : Rec.cross3 n t 0 ^ 2 + Rec.cross3 n t 1 ^ 2 + Rec.cross3 n t 2 ^ 2 = 1 := by
    have : Rec.cross3 n t 0 ^ 2 + Rec.cross3 n t 1 ^ 2 + Rec.cross3 n t 2 ^ 2 =
        (n 0 * n 0 + n 1 * n 1 + n 2 * n 2) * (t 0 * t 0 + t 1 * t 1 + t 2 * t 2) - (n 0 * t 0 + n 1 * t 1 + n 2 * t 2) ^ 2 := by
      simp [Rec.cross3]; ring
    rw [this, hn, ht, hnt]; norm_num
  rw [normalized_unit hc]
  have c0 : Rec.cross3 n t 0 = n 1 * t 2 - n 2 * t 1 := rfl
  have c1 : Rec.cross3 n t 1 = n 2 * t 0 - n 0 * t 2 := rfl
  have c2 : Rec.cross3 n t 2 = n 0 * t 1 - n 1 * t 0 := rfl
  intro k l
  rw [Fin.sum_univ_three]
  fin_cases k <;> fin_cases l <;> simp
  · exact hn
  · exact hnt
  · rw [c0, c1, c2]; ring
  · linarith [hnt]
  · exact ht
  · rw [c0, c1, c2]; ring
  · rw [c0, c1, c2]; ring
  · rw [c0, c1, c2]; ring
  · linarith [hc]

theorem tangent_of {n w : Fin 3 → ℝ} (hw : 0 < w 0 ^ 2 + w 1 ^ 2 + w 2 ^ 2) (h : n 0 * w 0 + n 1 * w 1 + n 2 * w 2 = 0) :
    (-(Rec.normalized3 w)) 0 * (-(Rec.normalized3 w)) 0 + (-(Rec.normalized3 w)) 1 * (-(Rec.normalized3 w)) 1 +
        (-(Rec.normalized3 w)) 2 * (-(Rec.normalized3 w)) 2 = 1 ∧
      n 0 * (-(Rec.normalized3 w)) 0 + n 1 * (-(Rec.normalized3 w)) 1 + n 2 * (-(Rec.normalized3 w)) 2 = 0 := by
  obtain ⟨l, hl, hl2, e⟩ := normalized_of hw
  rw [e]
  simp only [Pi.neg_apply]
  constructor
  · field_simp; linarith
  · have : n 0 * -(w 0 / l) + n 1 * -(w 1 / l) + n 2 * -(w 2 / l) = -(n 0 * w 0 + n 1 * w 1 + n 2 * w 2) / l := by field_simp; ring
    rw [this, h]; simp

theorem localBase_orthonormal {n : Fin 3 → ℝ} (hn : n 0 * n 0 + n 1 * n 1 + n 2 * n 2 = 1) : Orthonormal (Rec.localBase n) := by
  unfold Rec.localBase
  split
  · next h =>
    have h' : n 2 * n 2 < 1 := by nlinarith [abs_lt.1 h]
    have e : Rec.cross3 n ![0, 0, 1] = ![n 1, -n 0, 0] := by funext i; fin_cases i <;> simp [Rec.cross3]
    have := tangent_of (n := n) (w := Rec.cross3 n ![0, 0, 1]) (by rw [e]; simp; nlinarith) (by rw [e]; simp; ring)
    exact frame_of_tangent hn this.1 this.2
  · next h =>
    have h' : 0 < n 2 * n 2 := by
      rcases le_abs.1 (not_lt.1 h) with h | h <;> nlinarith
    have e : Rec.cross3 n ![0, 1, 0] = ![-n 2, 0, n 0] := by funext i; fin_cases i <;> simp [Rec.cross3]
    have := tangent_of (n := n) (w := Rec.cross3 n ![0, 1, 0]) (by rw [e]; simp; nlinarith [sq_nonneg (n 0)]) (by rw [e]; simp; ring)
    exact frame_of_tangent hn this.1 this.2

theorem frame_orthonormal' {n : Fin 3 → ℝ} (hn : UnitIn d n) : Orthonormal (frame d n) := by
  obtain ⟨rfl | rfl, h⟩ := hn
  · rw [Fin.sum_univ_two] at h
    simp [inDim] at h
    intro k l
    rw [Fin.sum_univ_two]
    fin_cases k <;> fin_cases l <;> simp [frame]
    · exact h
    · ring
    · ring
    · linarith
  · rw [Fin.sum_univ_three] at h
    simp [inDim] at h
    exact localBase_orthonormal h

theorem frame_first {n : Fin 3 → ℝ} (hn : UnitIn d n) (k : Fin d) (hk : k.1 = 0) : frame d n k = inDim d n := by
  obtain ⟨rfl | rfl, _⟩ := hn
  · have : k = 0 := Fin.ext hk
    subst this
    funext i; fin_cases i <;> simp [frame, inDim]
  · have : k = 0 := Fin.ext hk
    subst this
    funext i; fin_cases i <;> simp [frame, inDim, Rec.localBase]

/-! ## Turned matrices -/

theorem sum_split (f : Nat → ℝ) : ∑ k ∈ Finset.range (d + 2), f k = f 0 + ∑ k : Fin d, f (k.1 + 1) + f (d + 1) := by
  rw [Finset.sum_range_succ, Finset.sum_range_succ', Fin.sum_univ_eq_sum_range (fun k => f (k + 1)) d]
  ring

theorem turnCols_zero (b : Fin d → Fin d → ℝ) (M : Nat → Nat → ℝ) (i : Nat) : turnCols b M i 0 = M i 0 := by
  unfold turnCols; rw [dif_neg (by omega)]

theorem turnCols_last (b : Fin d → Fin d → ℝ) (M : Nat → Nat → ℝ) (i : Nat) : turnCols b M i (d + 1) = M i (d + 1) := by
  unfold turnCols; rw [dif_neg (by omega)]

theorem turnCols_mid (b : Fin d → Fin d → ℝ) (M : Nat → Nat → ℝ) (i : Nat) (c : Fin d) : turnCols b M i (c.1 + 1) = turn b (fun k => M i (k.1 + 1)) c := by
  unfold turnCols turn
  rw [dif_pos ⟨by omega, by omega⟩]
  exact Finset.sum_congr rfl fun k _ => mul_comm _ _

theorem turnRows_zero (b : Fin d → Fin d → ℝ) (M : Nat → Nat → ℝ) (j : Nat) : turnRows b M 0 j = M 0 j := by
  unfold turnRows; rw [dif_neg (by omega)]

theorem turnRows_last (b : Fin d → Fin d → ℝ) (M : Nat → Nat → ℝ) (j : Nat) : turnRows b M (d + 1) j = M (d + 1) j := by
  unfold turnRows; rw [dif_neg (by omega)]

theorem turnRows_mid (b : Fin d → Fin d → ℝ) (M : Nat → Nat → ℝ) (j : Nat) (c : Fin d) : turnRows b M (c.1 + 1) j = turn b (fun k => M (k.1 + 1) j) c := by
  unfold turnRows turn
  rw [dif_pos ⟨by omega, by omega⟩]
  rfl

theorem turned_product {b : Fin d → Fin d → ℝ} (hb : Orthonormal b) (L R : Nat → Nat → ℝ) (i j : Nat) :
    ∑ k ∈ Finset.range (d + 2), turnCols b L i k * turnRows b R k j = ∑ k ∈ Finset.range (d + 2), L i k * R k j := by
  rw [sum_split, sum_split, turnCols_zero, turnRows_zero, turnCols_last, turnRows_last]
  simp only [turnCols_mid, turnRows_mid]
  rw [dot_turn hb]

theorem embed_mul (M M' : Nat → Nat → ℝ) (h : ∀ i < d + 2, ∀ j < d + 2, ∑ k ∈ Finset.range (d + 2), M i k * M' k j = if i = j then 1 else 0) :
    embed e d M * embed e d M' = 1 := by
  ext i j
  rw [Matrix.mul_apply, Matrix.one_apply]
  by_cases hi : i.1 < d + 2
  · by_cases hj : j.1 < d + 2
    · have h1 : ∑ k : Fin (d + 2 + e), embed e d M i k * embed e d M' k j =
          ∑ k ∈ Finset.range (d + 2 + e), if k < d + 2 then M i k * M' k j else 0 := by
        rw [← Fin.sum_univ_eq_sum_range (fun k => if k < d + 2 then M i k * M' k j else 0)]
        refine Finset.sum_congr rfl fun k _ => ?_
        unfold embed
        by_cases hk : k.1 < d + 2
        · rw [if_pos ⟨hi, hk⟩, if_pos ⟨hk, hj⟩, if_pos hk]
        · rw [if_neg (fun h => hk h.2), if_neg (c := i = k) (fun h => hk (h ▸ hi)), zero_mul, if_neg hk]
      rw [h1, Finset.range_eq_Ico, ← Finset.sum_Ico_consecutive _ (Nat.zero_le (d + 2)) (by omega), ← Finset.range_eq_Ico,
        Finset.sum_congr rfl (fun k hk => if_pos (Finset.mem_range.1 hk)), h i hi j hj,
        Finset.sum_eq_zero (fun k hk => if_neg (by have := (Finset.mem_Ico.1 hk).1; omega)), add_zero]
      exact if_congr (by rw [Fin.ext_iff]) rfl rfl
    · rw [Finset.sum_eq_zero, if_neg (c := i = j) (fun h => hj (h ▸ hi))]
      intro k _
      unfold embed
      by_cases hk : k.1 < d + 2
      · rw [if_neg (c := k.1 < d + 2 ∧ j.1 < d + 2) (fun h => hj h.2), if_neg (c := k = j) (fun h => hj (h ▸ hk)), mul_zero]
      · rw [if_neg (fun h => hk h.2), if_neg (c := i = k) (fun h => hk (h ▸ hi)), zero_mul]
  · rw [Finset.sum_eq_single i]
    · unfold embed
      rw [if_neg (c := i.1 < d + 2 ∧ i.1 < d + 2) (fun h => hi h.1), if_neg (c := i.1 < d + 2 ∧ j.1 < d + 2) (fun h => hi h.1), if_pos (c := i = i) rfl, one_mul]
    · intro k _ hk
      unfold embed
      rw [if_neg (fun h => hi h.1), if_neg (fun h => hk h.symm), zero_mul]
    · intro h; exact absurd (Finset.mem_univ _) h

/-! ## The mean state -/

theorem mean_at (UL UR : Fin (d + 2 + e) → ℝ) (k : Fin (d + 2 + e)) : mean UL UR k.1 = midway UL UR k := by
  unfold mean midway
  rw [dif_pos k.2]; ring

theorem meanLocal_eq (b : Fin d → Fin d → ℝ) (UL UR : Fin (d + 2 + e) → ℝ) :
    meanLocal b UL UR = ((gasOf d e (midway UL UR)).1, comps b (gasOf d e (midway UL UR)).2.1, (gasOf d e (midway UL UR)).2.2) := by
  refine Prod.ext (mean_at UL UR ⟨0, by omega⟩) (Prod.ext ?_ (mean_at UL UR ⟨d + 1, by omega⟩))
  funext k
  show ∑ i : Fin d, b k i * mean UL UR (i.1 + 1) = ∑ i : Fin d, b k i * midway UL UR ⟨i.1 + 1, by omega⟩
  exact Finset.sum_congr rfl fun (i : Fin d) _ => congrArg (b k i * ·) (mean_at UL UR ⟨i.1 + 1, by omega⟩)

theorem midway_physical {gamma : ℝ} (hg : 1 < gamma) {UL UR : Fin (d + 2 + e) → ℝ} (hL : Physical gamma (gasOf d e UL)) (hR : Physical gamma (gasOf d e UR)) :
    Physical gamma (gasOf d e (midway UL UR)) := by
  have := Dt.physical_smul hg (Dt.physical_add hg hL hR) (t := 1 / 2) (by norm_num)
  have e : gasOf d e (midway UL UR) = (1 / 2 : ℝ) • (gasOf d e UL + gasOf d e UR) := by
    refine Prod.ext ?_ (Prod.ext ?_ ?_)
    · simp [gasOf, midway]; ring
    · funext i; simp [gasOf, midway]; ring
    · simp [gasOf, midway]; ring
  rw [e]; exact this

/-- the state in the frame of a face -/
noncomputable def locSt (b : Fin d → Fin d → ℝ) (W : St ℝ d) : St ℝ d := (W.1, comps b W.2.1, W.2.2)

/-- its velocity, with zeros behind -/
noncomputable def veloOf (U : St ℝ d) (k : Nat) : ℝ := if h : k < d then U.2.1 ⟨k, h⟩ / U.1 else 0

theorem turnSt_locSt {b : Fin d → Fin d → ℝ} (hb : Orthonormal b) (W : St ℝ d) : turnSt b (locSt b W) = W :=
  Prod.ext rfl (Prod.ext (turn_comps hb W.2.1) rfl)

theorem locSt_sq {b : Fin d → Fin d → ℝ} (hb : Orthonormal b) (W : St ℝ d) : ∑ i, (locSt b W).2.1 i * (locSt b W).2.1 i = ∑ i, W.2.1 i * W.2.1 i := by
  have := dot_turn hb (comps b W.2.1) (comps b W.2.1)
  rw [turn_comps hb] at this
  exact this.symm

theorem locSt_pressure {b : Fin d → Fin d → ℝ} (hb : Orthonormal b) (gamma : ℝ) (W : St ℝ d) : (primOf gamma (locSt b W)).2.2 = (primOf gamma W).2.2 := by
  unfold primOf
  simp only [locSt_sq hb W]
  rfl

theorem veloOf_sq (U : St ℝ d) : ∑ k ∈ Finset.range d, veloOf U k * veloOf U k = (∑ i, U.2.1 i * U.2.1 i) / (U.1 * U.1) := by
  rw [← Fin.sum_univ_eq_sum_range (fun k => veloOf U k * veloOf U k), Finset.sum_div]
  refine Finset.sum_congr rfl fun k _ => ?_
  have : veloOf U k.1 = U.2.1 k / U.1 := by unfold veloOf; rw [dif_pos k.2]
  rw [this, div_mul_div_comm]

/-- the eigenvectors of a gas are there, with its sound speed and enthalpy -/
theorem gas_side {gamma : ℝ} (hg : 1 < gamma) {U : St ℝ d} (hU : Physical gamma U) :
    ∃ H a : ℝ, 0 < a ∧ a = sound gamma U ∧ a * a = gamma * (primOf gamma U).2.2 / U.1 ∧
      H = gamma / (gamma - 1) * ((primOf gamma U).2.2 / U.1) + (∑ k ∈ Finset.range d, veloOf U k * veloOf U k) / 2 ∧
      gasLeft U gamma = .ok (leftEig d (veloOf U) H a gamma) ∧
      gasRight U gamma = .ok (rightEig d (veloOf U) (∑ k ∈ Finset.range d, veloOf U k * veloOf U k) H a) := by
  have hr := hU.rho
  have hp := hU.p
  have hg1 : gamma - 1 ≠ 0 := by linarith
  have ep : (thermal U.2.2 U.1 (∑ k ∈ Finset.range d, veloOf U k * veloOf U k) gamma).1 = (primOf gamma U).2.2 := by
    show (gamma - 1) * (U.2.2 - U.1 * (1 / 2) * _) = (gamma - 1) * (U.2.2 - _ / (2 * U.1))
    rw [veloOf_sq]; field_simp
  have ea : (thermal U.2.2 U.1 (∑ k ∈ Finset.range d, veloOf U k * veloOf U k) gamma).2.1 = gamma * (primOf gamma U).2.2 / U.1 := by
    rw [← ep]; rfl
  have hpos : 0 < gamma * (primOf gamma U).2.2 / U.1 := by positivity
  have eH : (thermal U.2.2 U.1 (∑ k ∈ Finset.range d, veloOf U k * veloOf U k) gamma).2.2 =
      gamma / (gamma - 1) * ((primOf gamma U).2.2 / U.1) + (∑ k ∈ Finset.range d, veloOf U k * veloOf U k) / 2 := by
    have e1 : (thermal U.2.2 U.1 (∑ k ∈ Finset.range d, veloOf U k * veloOf U k) gamma).2.2 = (U.2.2 + (primOf gamma U).2.2) / U.1 := by
      rw [← ep]; rfl
    have e2 : (primOf gamma U).2.2 = (gamma - 1) * (U.2.2 - U.1 * (1 / 2) * ∑ k ∈ Finset.range d, veloOf U k * veloOf U k) := by
      rw [← ep]; rfl
    rw [e1, e2]; field_simp; ring
  refine ⟨_, √(gamma * (primOf gamma U).2.2 / U.1), Real.sqrt_pos.2 hpos, rfl, Real.mul_self_sqrt hpos.le, eH, ?_, ?_⟩
  · unfold gasLeft
    rw [Res.assert_true _ hr, Res.ok_bind]
    show (do Res.assert (0 ≤ (thermal U.2.2 U.1 (∑ k ∈ Finset.range d, veloOf U k * veloOf U k) gamma).2.1)
             Res.ok (leftEig d (veloOf U) (thermal U.2.2 U.1 (∑ k ∈ Finset.range d, veloOf U k * veloOf U k) gamma).2.2 (√(thermal U.2.2 U.1 (∑ k ∈ Finset.range d, veloOf U k * veloOf U k) gamma).2.1) gamma)) = _
    rw [Res.assert_true _ (by rw [ea]; exact hpos.le), Res.ok_bind, ea]
  · unfold gasRight
    rw [Res.assert_true _ hr, Res.ok_bind]
    show (do Res.assert (0 ≤ (thermal U.2.2 U.1 (∑ k ∈ Finset.range d, veloOf U k * veloOf U k) gamma).2.1)
             Res.ok (rightEig d (veloOf U) (∑ k ∈ Finset.range d, veloOf U k * veloOf U k) (thermal U.2.2 U.1 (∑ k ∈ Finset.range d, veloOf U k * veloOf U k) gamma).2.2 (√(thermal U.2.2 U.1 (∑ k ∈ Finset.range d, veloOf U k * veloOf U k) gamma).2.1))) = _
    rw [Res.assert_true _ (by rw [ea]; exact hpos.le), Res.ok_bind, ea]

end DNDSR.CharVar
