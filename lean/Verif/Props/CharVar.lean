import Verif.Proof.CharVar
import Verif.Props.LimProcDemo

/-!
# C100: the limiter of the Euler solver works on the characteristic variables of the mean state
-/

namespace DNDSR.CharVar

open DNDSR.Gas
open Matrix

variable {d e : Nat}

/-- **C100** The frame at a face is orthonormal and begins with the normal, in the plane and in space. -/
theorem frame_orthonormal {n : Fin 3 → ℝ} (hn : UnitIn d n) : Orthonormal (frame d n) ∧ ∀ k : Fin d, k.1 = 0 → frame d n k = inDim d n :=
  ⟨frame_orthonormal' hn, frame_first hn⟩

example : UnitIn 3 ![2 / 3, 2 / 3, 1 / 3] := ⟨Or.inr rfl, by rw [Fin.sum_univ_three]; simp [inDim]; norm_num⟩

example : UnitIn 2 ![3 / 5, 4 / 5, 0] := ⟨Or.inl rfl, by rw [Fin.sum_univ_two]; simp [inDim]; norm_num⟩

/-- the two matrices, with what they are made of -/
theorem matrices {gamma : ℝ} (hg : 1 < gamma) {n : Fin 3 → ℝ} (hn : UnitIn d n) {UL UR : Fin (d + 2 + e) → ℝ} (hL : Physical gamma (gasOf d e UL))
    (hR : Physical gamma (gasOf d e UR)) :
    ∃ (L R : Nat → Nat → ℝ), gasLeft (meanLocal (frame d n) UL UR) gamma = .ok L ∧ gasRight (meanLocal (frame d n) UL UR) gamma = .ok R ∧
      embed e d (turnCols (frame d n) L) * embed e d (turnRows (frame d n) R) = 1 ∧
      ∀ (vg : Fin d → ℝ) (j : Nat), j < d + 2 →
        jacobian gamma (gasOf d e (midway UL UR)) (primOf gamma (gasOf d e (midway UL UR))).2.2 (primOf gamma (gasOf d e (midway UL UR))).2.1 vg (inDim d n)
            (turnSt (frame d n) (column d R j)) =
          (along (gasOf d e (midway UL UR)) (inDim d n) - ∑ i, vg i * inDim d n i +
            if j = 0 then -sound gamma (gasOf d e (midway UL UR)) else if j = d + 1 then sound gamma (gasOf d e (midway UL UR)) else 0) •
          turnSt (frame d n) (column d R j) := by
  obtain ⟨m, rfl⟩ : ∃ m, d = m + 1 := ⟨d - 1, by rcases hn.1 with h | h <;> omega⟩
  have hb := frame_orthonormal' hn
  have hb0 := frame_first hn
  set b := frame (m + 1) n
  set W := gasOf (m + 1) e (midway UL UR)
  have hW : Physical gamma W := midway_physical hg hL hR
  have eU : meanLocal b UL UR = locSt b W := meanLocal_eq b UL UR
  have ep : (primOf gamma (locSt b W)).2.2 = (primOf gamma W).2.2 := locSt_pressure hb gamma W
  have hU : Physical gamma (locSt b W) := ⟨hW.rho, by rw [ep]; exact hW.p⟩
  have er : (locSt b W).1 = W.1 := rfl
  obtain ⟨H, a, ha, ea, easq, eH, hl, hr⟩ := gas_side hg hU
  rw [ep, er] at easq eH
  have ea' : a = sound gamma W := by rw [ea]; unfold sound; rw [ep]; rfl
  rw [eU]
  refine ⟨_, _, hl, hr, embed_mul _ _ fun i hi j hj => ?_, fun vg j hj => ?_⟩
  · rw [turned_product hb]
    refine left_right m _ H a gamma two_ne_zero ha.ne' (by linarith) ?_ i j hi hj
    rw [eH, easq]
    have : gamma - 1 ≠ 0 := by linarith
    congr 1
    field_simp
  · have hv : ∀ i : Fin (m + 1), veloOf (locSt b W) i.1 = (locSt b W).2.1 i / W.1 := fun i => by unfold veloOf; rw [dif_pos i.2]; rfl
    have hr0 := hW.rho.ne'
    have gas : IsGas gamma W.1 (primOf gamma W).2.2 (fun i : Fin (m + 1) => veloOf (locSt b W) i.1) (locSt b W) := by
      refine ⟨rfl, fun i => ?_, ?_⟩
      · show _ = W.1 * veloOf (locSt b W) i.1
        rw [hv]; field_simp
      · show W.2.2 = _
        unfold energy
        have e1 : ∑ i : Fin (m + 1), veloOf (locSt b W) i.1 * veloOf (locSt b W) i.1 = (∑ i, W.2.1 i * W.2.1 i) / (W.1 * W.1) := by
          rw [Fin.sum_univ_eq_sum_range (fun k => veloOf (locSt b W) k * veloOf (locSt b W) k), veloOf_sq, locSt_sq hb]; rfl
        rw [e1]
        have : gamma - 1 ≠ 0 := by linarith
        unfold primOf
        field_simp
        ring
    have key := right_eigen m (veloOf (locSt b W)) (comps b vg) W.1 (primOf gamma W).2.2 H a gamma (locSt b W) two_ne_zero hr0 (by linarith) gas easq eH j hj
    have turned := jacobian_turn hb gamma (primOf gamma W).2.2 (locSt b W)
      (column (m + 1) (rightEig (m + 1) (veloOf (locSt b W)) (∑ k ∈ Finset.range (m + 1), veloOf (locSt b W) k * veloOf (locSt b W) k) H a) j)
      (fun i => veloOf (locSt b W) i) (comps b vg) (Pi.single 0 1)
    rw [key, turnSt_smul, turnSt_locSt hb, turn_comps hb] at turned
    have en : turn b (Pi.single 0 1) = inDim (m + 1) n := by
      rw [← hb0 0 rfl]
      funext i
      unfold turn
      rw [Finset.sum_eq_single 0]
      · simp
      · intro k _ hk; simp [hk]
      · intro h; exact absurd (Finset.mem_univ _) h
    have ev : turn b (fun i => veloOf (locSt b W) i.1) = (primOf gamma W).2.1 := by
      have : (fun i : Fin (m + 1) => veloOf (locSt b W) i.1) = W.1⁻¹ • comps b W.2.1 := by
        funext i; rw [hv, div_eq_inv_mul]; rfl
      rw [this, turn_smul, turn_comps hb]
      funext i
      exact (div_eq_inv_mul _ _).symm
    rw [en, ev] at turned
    rw [turned]
    congr 2
    · have e1 : veloOf (locSt b W) 0 = along W (inDim (m + 1) n) := by
        have := hv 0
        rw [show ((0 : Fin (m + 1)) : Nat) = 0 from rfl] at this
        rw [this, ← hb0 0 rfl]
        unfold along
        show (∑ i, b 0 i * W.2.1 i) / W.1 = ∑ i, W.2.1 i / W.1 * b 0 i
        rw [Finset.sum_div]
        exact Finset.sum_congr rfl fun i _ => by ring
      have e2 : comps b vg 0 = ∑ i, vg i * inDim (m + 1) n i := by
        rw [← hb0 0 rfl]
        exact Finset.sum_congr rfl fun i _ => mul_comm _ _
      rw [e1, e2]
    · rw [ea']

/-- **C100** Between two states of a gas, `fML` and `fMR` return for every batch and undo each other: going to characteristic variables and back
changes nothing. -/
theorem char_inverse {gamma : ℝ} (hg : 1 < gamma) {n : Fin 3 → ℝ} (hn : UnitIn d n) {UL UR : Fin (d + 2 + e) → ℝ} (hL : Physical gamma (gasOf d e UL))
    (hR : Physical gamma (gasOf d e UR)) {m : Nat} (data : Matrix (Fin m) (Fin (d + 2 + e)) ℝ) :
    (∃ w, fML gamma UL UR n data = .ok w ∧ fMR gamma UL UR n w = .ok data) ∧ ∃ w, fMR gamma UL UR n data = .ok w ∧ fML gamma UL UR n w = .ok data := by
  obtain ⟨L, R, hl, hr, h1, -⟩ := matrices hg hn hL hR
  have h2 := mul_eq_one_comm.1 h1
  refine ⟨⟨_, by unfold fML; rw [hl]; rfl, ?_⟩, _, by unfold fMR; rw [hr]; rfl, ?_⟩
  · unfold fMR
    rw [hr, Res.ok_bind, Matrix.transpose_transpose, ← Matrix.mul_assoc, h2, Matrix.one_mul, Matrix.transpose_transpose]
  · unfold fML
    rw [hl, Res.ok_bind, Matrix.transpose_transpose, ← Matrix.mul_assoc, h1, Matrix.one_mul, Matrix.transpose_transpose]

/-- **C100** The variables behind those of the gas are characteristic variables themselves, and do not mix with the gas. -/
theorem char_extra {gamma : ℝ} {n : Fin 3 → ℝ} {UL UR : Fin (d + 2 + e) → ℝ} {m : Nat} {data w : Matrix (Fin m) (Fin (d + 2 + e)) ℝ}
    (h : fML gamma UL UR n data = .ok w ∨ fMR gamma UL UR n data = .ok w) (k : Fin m) (v : Fin (d + 2 + e)) (hv : d + 2 ≤ v.1) : w k v = data k v := by
  have key : ∀ M : Nat → Nat → ℝ, (embed e d M * dataᵀ)ᵀ k v = data k v := fun M => by
    rw [Matrix.transpose_apply, Matrix.mul_apply, Finset.sum_eq_single v]
    · unfold embed; rw [if_neg (by omega), if_pos rfl, one_mul]; rfl
    · intro j _ hj
      unfold embed; rw [if_neg (by omega), if_neg (fun h => hj h.symm), zero_mul]
    · intro h; exact absurd (Finset.mem_univ _) h
  rcases h with h | h
  · unfold fML at h
    obtain ⟨M, -, h⟩ := (Res.bind_ok_iff _ _ _).1 h
    cases h; exact key _
  · unfold fMR at h
    obtain ⟨M, -, h⟩ := (Res.bind_ok_iff _ _ _).1 h
    cases h; exact key _

/-- **C100** What `fMR` makes of a single characteristic variable is an eigenvector of the derivative of the flux along the normal at the state halfway
between the two sides: the first one moves with `v·n - a`, the last of the gas with `v·n + a`, those between with `v·n`. -/
theorem char_waves {gamma : ℝ} (hg : 1 < gamma) {n : Fin 3 → ℝ} (hn : UnitIn d n) {UL UR : Fin (d + 2 + e) → ℝ} (hL : Physical gamma (gasOf d e UL))
    (hR : Physical gamma (gasOf d e UR)) {m : Nat} (k : Fin m) (j : Fin (d + 2 + e)) (hj : j.1 < d + 2) (data : Matrix (Fin m) (Fin (d + 2 + e)) ℝ)
    (hd : data k = Pi.single j 1) (vg : Fin d → ℝ) :
    ∃ w, fMR gamma UL UR n data = .ok w ∧ (∃ v, w k v ≠ 0) ∧
      jacobian gamma (gasOf d e (midway UL UR)) (primOf gamma (gasOf d e (midway UL UR))).2.2 (primOf gamma (gasOf d e (midway UL UR))).2.1 vg (inDim d n)
          (gasOf d e (w k)) =
        (along (gasOf d e (midway UL UR)) (inDim d n) - ∑ i, vg i * inDim d n i +
          if j.1 = 0 then -sound gamma (gasOf d e (midway UL UR)) else if j.1 = d + 1 then sound gamma (gasOf d e (midway UL UR)) else 0) • gasOf d e (w k) := by
  obtain ⟨L, R, hl, hr, h1, h3⟩ := matrices hg hn hL hR
  have hcol : ∀ v, (embed e d (turnRows (frame d n) R) * dataᵀ)ᵀ k v = embed e d (turnRows (frame d n) R) v j := fun v => by
    rw [Matrix.transpose_apply, Matrix.mul_apply, Finset.sum_eq_single j]
    · rw [Matrix.transpose_apply, hd, Pi.single_eq_same, mul_one]
    · intro j' _ hj'
      rw [Matrix.transpose_apply, hd, Pi.single_eq_of_ne hj', mul_zero]
    · intro h; exact absurd (Finset.mem_univ _) h
  refine ⟨_, by unfold fMR; rw [hr]; rfl, ?_, ?_⟩
  · by_contra hz
    push Not at hz
    have := congrFun (congrFun h1 j) j
    rw [Matrix.mul_apply, Matrix.one_apply_eq, Finset.sum_eq_zero (fun v _ => by rw [← hcol v, hz v, mul_zero])] at this
    exact zero_ne_one this
  · have eg : gasOf d e ((embed e d (turnRows (frame d n) R) * dataᵀ)ᵀ k) = turnSt (frame d n) (column d R j.1) := by
      refine Prod.ext ?_ (Prod.ext ?_ ?_)
      · show (embed e d (turnRows (frame d n) R) * dataᵀ)ᵀ k _ = _
        rw [hcol]; unfold embed
        rw [if_pos ⟨by show 0 < d + 2; omega, hj⟩, turnRows_zero]; rfl
      · funext i
        show (embed e d (turnRows (frame d n) R) * dataᵀ)ᵀ k _ = _
        rw [hcol]; unfold embed
        rw [if_pos ⟨by show i.1 + 1 < d + 2; omega, hj⟩]
        exact turnRows_mid _ _ _ i
      · show (embed e d (turnRows (frame d n) R) * dataᵀ)ᵀ k _ = _
        rw [hcol]; unfold embed
        rw [if_pos ⟨by show d + 1 < d + 2; omega, hj⟩]
        exact turnRows_last _ _ _
    rw [eg]
    exact h3 vg j.1 hj

/-- **C100** Where the mean density of the two sides is not positive the program stops. -/
theorem char_refused (gamma : ℝ) {n : Fin 3 → ℝ} {UL UR : Fin (d + 2 + e) → ℝ} (h : (gasOf d e (midway UL UR)).1 ≤ 0) {m : Nat}
    (data : Matrix (Fin m) (Fin (d + 2 + e)) ℝ) : fML gamma UL UR n data = .abort ∧ fMR gamma UL UR n data = .abort := by
  have e0 : ¬ 0 < (meanLocal (frame d n) UL UR).1 := by rw [meanLocal_eq]; exact not_lt.2 h
  have ha := (Res.assert_abort_iff (0 < (meanLocal (frame d n) UL UR).1)).2 e0
  constructor
  · unfold fML gasLeft
    rw [ha]; rfl
  · unfold fMR gasRight
    rw [ha]; rfl

/-! ## In the limiter -/

theorem eulerEig_inverse {N : Nat} {gamma : ℝ} (hg : 1 < gamma) (P : LimProc.Prob N (d + 2 + e)) (hU : ∀ i, Physical gamma (gasOf d e (P.U i)))
    (hν : ∀ i, ∀ j < Flux.nSides P.G i, UnitIn d (P.ν (P.F i j))) :
    ∀ i, ∀ j < Flux.nSides P.G i, ∀ i', P.mate i j = some i' → ∀ m B, (eulerEig d e gamma).fmi (P.left i j i') (P.right i j i') (P.ν (P.F i j)) m
      ((eulerEig d e gamma).fm (P.left i j i') (P.right i j i') (P.ν (P.F i j)) m B) = B := by
  intro i j hj i' _ m B
  have hl : Physical gamma (gasOf d e (P.left i j i')) := by unfold LimProc.Prob.left; split <;> exact hU _
  have hr : Physical gamma (gasOf d e (P.right i j i')) := by unfold LimProc.Prob.right; split <;> exact hU _
  obtain ⟨⟨w, e1, e2⟩, -⟩ := char_inverse hg (hν i j hj) hl hr B
  show value (fMR gamma _ _ _ (value (fML gamma _ _ _ B))) = B
  rw [e1]
  show value (fMR gamma _ _ _ w) = B
  rw [e2]; rfl

/-- **C100** With the characteristic variables of the gas, the limiters keep polynomials as those of C99 do: between gases and with normals of length
one, a cell whose neighbours all have its polynomial keeps its coefficients, up to the guard of the multi-way limiter. -/
theorem euler_limiter_keeps {N : Nat} {c : LimProc.Ctl} (hgood : LimProc.Good c N) (hb : c.biway = 1 ∨ c.biway = 3) (hn : c.normWBAP = false) (hs : 0 < c.nStd)
    (ifAll : Bool) {gamma : ℝ} (hg : 1 < gamma) (P : LimProc.Prob N (d + 2 + e)) (hU : ∀ i, Physical gamma (gasOf d e (P.U i)))
    (hν : ∀ i, ∀ j < Flux.nSides P.G i, UnitIn d (P.ν (P.F i j))) (X : Nat → Matrix (Fin N) (Fin (d + 2 + e)) ℝ) :
    (∃ Y : Nat → Matrix (Fin N) (Fin (d + 2 + e)) ℝ, LimProc.Gives (fun gc put => LimProc.limiterC gc c (eulerEig d e gamma) ifAll put) P X Y ∧
      ∀ i, P.Smooth X i → P.Triangular c i → ∀ k v, |Y i k v - X i k v| ≤ 1 / 10 ^ 50) ∧
    ((∀ i (k : Fin N) v, LimProc.modes c.dim 1 ≤ k.1 → X i k v = 0) →
      ∃ Y : Nat → Matrix (Fin N) (Fin (d + 2 + e)) ℝ, LimProc.Gives (fun gc put => LimProc.limiter3 gc c (eulerEig d e gamma) ifAll put) P X Y ∧
        ∀ i, P.Smooth X i → ∀ k v, |Y i k v - X i k v| ≤ 1 / 10 ^ 50) :=
  ⟨LimProc.limiterC_polynomial hgood hb hn hs _ ifAll P (eulerEig_inverse hg P hU hν) X,
    fun h => LimProc.limiter3_linear hgood hb hn hs _ ifAll P (eulerEig_inverse hg P hU hν) X h⟩

/-- a plane gas with one more variable that moves to the right -/
noncomputable def demoGas : Fin (2 + 2 + 1) → ℝ := ![1, 1 / 2, 0, 2, 7]

theorem demoGas_physical : Physical (7 / 5) (gasOf 2 1 demoGas) := by
  refine ⟨?_, ?_⟩
  · show (0 : ℝ) < 1; norm_num
  · show 0 < ((7 / 5 : ℝ) - 1) * (2 - (∑ i : Fin 2, _ * _) / (2 * 1))
    rw [Fin.sum_univ_two]
    show 0 < ((7 / 5 : ℝ) - 1) * (2 - (1 / 2 * (1 / 2) + 0 * 0) / (2 * 1))
    norm_num

/-- The conditions on the two sides can be met, and the waves are three different ones. -/
example : UnitIn 2 ![3 / 5, 4 / 5, 0] ∧ Physical (7 / 5) (gasOf 2 1 demoGas) ∧ 0 < sound (7 / 5) (gasOf 2 1 (midway demoGas demoGas)) :=
  ⟨⟨Or.inl rfl, by rw [Fin.sum_univ_two]; simp [inDim]; norm_num⟩, demoGas_physical, by
    have := midway_physical (gamma := 7 / 5) (by norm_num) demoGas_physical demoGas_physical
    exact Real.sqrt_pos.2 (div_pos (mul_pos (by norm_num) this.p) this.rho)⟩

/-- Two quadrilaterals of this gas: the limiter keeps the same gradient in both. -/
example (per : Bool) (F : Nat → Nat → Int) (E : Int → Nat × Nat) (mate : Nat → Nat → Option Nat) (g : Matrix (Fin 2) (Fin (2 + 2 + 1)) ℝ) :
    ∃ Y, LimProc.Gives (fun gc put => LimProc.limiterC gc LimProc.demoCtl (eulerEig 2 1 (7 / 5)) false put)
        { LimProc.demoProb 5 per F E mate with U := fun _ => demoGas } (fun _ => g) Y ∧ ∀ i k v, |Y i k v - g k v| ≤ 1 / 10 ^ 50 := by
  obtain ⟨⟨Y, h1, h2⟩, -⟩ := euler_limiter_keeps (d := 2) (e := 1) LimProc.demo_good (Or.inl rfl) rfl (by show (0 : ℝ) < 10; norm_num) false
    (gamma := 7 / 5) (by norm_num) { LimProc.demoProb 5 per F E mate with U := fun _ => demoGas } (fun _ => demoGas_physical)
    (fun _ _ _ => ⟨Or.inl rfl, by rw [Fin.sum_univ_two]; simp [inDim, LimProc.demoProb]⟩) (fun _ => g)
  refine ⟨Y, h1, fun i => h2 i (fun j _ i' _ => ?_) (fun j _ q k k' h h' => ?_)⟩
  · have h1 : ({ LimProc.demoProb 5 per F E mate with U := fun _ => demoGas } : LimProc.Prob 2 5).into i j = 1 := ite_self (1 : Matrix (Fin 2) (Fin 2) ℝ)
    have h2 : ({ LimProc.demoProb 5 per F E mate with U := fun _ => demoGas } : LimProc.Prob 2 5).outOf i j = 1 := ite_self (1 : Matrix (Fin 2) (Fin 2) ℝ)
    rw [h1, h2]
    exact ⟨Matrix.one_mul _, Matrix.one_mul _⟩
  · have : ({ LimProc.demoProb 5 per F E mate with U := fun _ => demoGas } : LimProc.Prob 2 5).outOf i j = 1 := ite_self (1 : Matrix (Fin 2) (Fin 2) ℝ)
    rw [this]
    exact Matrix.one_apply_ne fun e => by rw [e] at h; omega

end DNDSR.CharVar
