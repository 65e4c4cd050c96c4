import Verif.Proof.Gmres
import Mathlib.Algebra.Order.Ring.Rat
import Mathlib.Analysis.Real.Sqrt
import Mathlib.Tactic.NormNum

namespace DNDSR.Krylov

open Finset

variable {K V : Type} [Field K] [LinearOrder K] [AddCommGroup V] [Module K V]

/-! ## C33 -/

/-- the norm of the preconditioned residual as the solver computes it -/
def resNorm (o : GOps K V) (b x : V) : K := o.sqrt (o.dot (o.FML (o.FA x) + (-1 : K) • o.FML b) (o.FML (o.FA x) + (-1 : K) • o.FML b))

/-- C33, what the returned flag means.  For all operators (not only linear ones), least squares routines, start vectors, restart
lengths and limits: if the solver returns true then at the returned vector the criterion was accepted for its true preconditioned
residual, or that residual is negligible; or the search space broke down, in which case nothing is known (see
`gmres_breakdown_wrong`).  The full property, without the last alternative, is false. -/
theorem gmres_true_partial (o : GOps K V) (vsmall : K) (kSub nRestart : Nat) (stop : Nat → K → K → Bool) (Vs : Nat → V) (b x x' : V)
    (flag : Bool) (why : Why) (log : List (V × Nat))
    (h : gmresSolve o vsmall kSub nRestart stop Vs b x = .ok (x', flag, why, log)) (hf : flag = true) :
    (∃ i < nRestart, stop i (resNorm o b x') (o.sqrt (o.dot (o.FML b) (o.FML b))) = true) ∨ |resNorm o b x'| < vsmall ∨
      why = .noColumn ∨ why = .deficient := by
  have key : ∀ (n i : Nat) (Vs : Nat → V) (hh : Nat → Nat → K) (x : V) (l : List (V × Nat)) (r : V × Nat × Why × List (V × Nat)),
      i + n = nRestart + 1 →
      gmresLoop o vsmall kSub nRestart stop (o.FML b) (o.sqrt (o.dot (o.FML b) (o.FML b))) n i Vs hh x l = .ok r → r.2.1 < nRestart →
      (∃ i < nRestart, stop i (resNorm o b r.1) (o.sqrt (o.dot (o.FML b) (o.FML b))) = true) ∨ |resNorm o b r.1| < vsmall ∨
        r.2.2.1 = .noColumn ∨ r.2.2.1 = .deficient := by
    intro n
    induction n with
    | zero =>
      intro i Vs hh x l r hi h hr
      obtain e := Res.ok.inj h
      subst e
      simp at hr
      omega
    | succ n ih =>
      intro i Vs hh x l r hi h hr
      simp only [gmresLoop] at h
      split at h
      · rename_i hst
        obtain e := Res.ok.inj h
        subst e
        exact Or.inl ⟨i, hr, hst⟩
      · split at h
        · rename_i hst
          obtain e := Res.ok.inj h
          subst e
          exact Or.inr (Or.inl hst)
        · split at h
          · rename_i hst
            obtain e := Res.ok.inj h
            subst e
            simp at hr
            omega
          · obtain ⟨⟨j, Vs', h'⟩, _, h⟩ := (Res.bind_ok_iff _ _ _).mp h
            simp only at h
            split at h
            · obtain e := Res.ok.inj h
              subst e
              exact Or.inr (Or.inr (Or.inl rfl))
            · split at h
              · obtain e := Res.ok.inj h
                subst e
                exact Or.inr (Or.inr (Or.inr rfl))
              · exact ih (i + 1) _ _ _ _ r (by omega) h hr
  unfold gmresSolve at h
  simp only at h
  obtain ⟨r, h1, h2⟩ := (Res.bind_ok_iff _ _ _).mp h
  obtain ⟨rx, ri, rw', rl⟩ := r
  obtain e := Res.ok.inj h2
  simp only [Prod.mk.injEq] at e
  obtain ⟨e1, e2, e3, e4⟩ := e
  subst e1 e2 e3 e4
  exact key _ 0 _ _ _ _ _ (by omega) h1 (by simpa using hf)

theorem gmresLoop_stop (o : GOps K V) (vsmall : K) (kSub nRestart : Nat) (stop : Nat → K → K → Bool) (b : V) (scale : K) (n i : Nat)
    (Vs : Nat → V) (h : Nat → Nat → K) (x : V) (l : List (V × Nat)) (h1 : stop i (resNorm o b x) scale = true) :
    gmresLoop o vsmall kSub nRestart stop (o.FML b) scale (n + 1) i Vs h x l = .ok (x, i, .stopped, l) := by
  simp only [gmresLoop]
  exact if_pos h1

theorem gmresLoop_negligible (o : GOps K V) (vsmall : K) (kSub nRestart : Nat) (stop : Nat → K → K → Bool) (b : V) (scale : K) (n i : Nat)
    (Vs : Nat → V) (h : Nat → Nat → K) (x : V) (l : List (V × Nat)) (h1 : ¬ stop i (resNorm o b x) scale = true)
    (h2 : |resNorm o b x| < vsmall) :
    gmresLoop o vsmall kSub nRestart stop (o.FML b) scale (n + 1) i Vs h x l = .ok (x, i, .negligible, l) := by
  simp only [gmresLoop]
  exact (if_neg h1).trans (if_pos h2)

theorem gmresLoop_last (o : GOps K V) (vsmall : K) (kSub nRestart : Nat) (stop : Nat → K → K → Bool) (b : V) (scale : K) (n i : Nat)
    (Vs : Nat → V) (h : Nat → Nat → K) (x : V) (l : List (V × Nat)) (h1 : ¬ stop i (resNorm o b x) scale = true)
    (h2 : ¬ |resNorm o b x| < vsmall) (h3 : i = nRestart) :
    gmresLoop o vsmall kSub nRestart stop (o.FML b) scale (n + 1) i Vs h x l = .ok (x, i, .lastRestart, l) := by
  simp only [gmresLoop]
  exact (if_neg h1).trans ((if_neg h2).trans (if_pos h3))

theorem gmresLoop_cycle (o : GOps K V) (vsmall : K) (kSub nRestart : Nat) (stop : Nat → K → K → Bool) (b : V) (n i : Nat)
    (Vs : Nat → V) (h : Nat → Nat → K) (x : V) (l : List (V × Nat))
    (h1 : ¬ stop i (resNorm o b x) (o.sqrt (o.dot (o.FML b) (o.FML b))) = true) (h2 : ¬ |resNorm o b x| < vsmall) (h3 : ¬ i = nRestart)
    (j : Nat) (Vs' : Nat → V) (h' : Nat → Nat → K)
    (ha : arnoldi o.FA o.FML o.dot o.sqrt (o.sqrt (o.dot (o.FML b) (o.FML b))) kSub 0
      (upd Vs 0 ((-1 / resNorm o b x) • (o.FML (o.FA x) + (-1 : K) • o.FML b))) h = .ok (j, Vs', h')) :
    gmresLoop o vsmall kSub nRestart stop (o.FML b) (o.sqrt (o.dot (o.FML b) (o.FML b))) (n + 1) i Vs h x l =
      if j < 1 then .ok (x, i, .noColumn, l) else
      if (o.lsq j h' (resNorm o b x)).2 < kSub then
        .ok (addBasis Vs' (o.lsq j h' (resNorm o b x)).1 j x, i, .deficient, l ++ [(addBasis Vs' (o.lsq j h' (resNorm o b x)).1 j x, j)])
      else gmresLoop o vsmall kSub nRestart stop (o.FML b) (o.sqrt (o.dot (o.FML b) (o.FML b))) n (i + 1) Vs' h'
        (addBasis Vs' (o.lsq j h' (resNorm o b x)).1 j x) (l ++ [(addBasis Vs' (o.lsq j h' (resNorm o b x)).1 j x, j)]) := by
  simp only [gmresLoop]
  refine (if_neg h1).trans ((if_neg h2).trans ((if_neg h3).trans ?_))
  simp only [resNorm] at ha
  rw [ha]
  rfl

variable [IsStrictOrderedRing K] {dot : V →ₗ[K] V →ₗ[K] K} {A ML : V →ₗ[K] V}

/-- the functions handed to `solve` for a linear system -/
def linOps (dot : V →ₗ[K] V →ₗ[K] K) (A ML : V →ₗ[K] V) (sqrt : K → K) (lsq : Nat → (Nat → Nat → K) → K → (Nat → K) × Nat) : GOps K V :=
  { FA := A, FML := ML, dot := fun u v => dot u v, sqrt := sqrt, lsq := lsq }

/-- C33, what is computed.  For every linear `A` and preconditioner, every non-negative symmetric form, correct square roots and a
least squares routine that minimizes: the solver never fails; each restart cycle replaces the iterate by one with the least
preconditioned residual over the Krylov space spanned by the `j ≥ 1` columns it built; the last iterate is the one returned. -/
theorem gmres_minimizes (symm : ∀ u v, dot u v = dot v u) (pos : ∀ u, 0 ≤ dot u u) (sqrt : K → K)
    (hs : ∀ a, 0 ≤ a → 0 ≤ sqrt a ∧ sqrt a * sqrt a = a) (lsq : Nat → (Nat → Nat → K) → K → (Nat → K) × Nat) (hl : IsLsq lsq)
    (vsmall : K) (hv : 0 < vsmall) (kSub nRestart : Nat) (stop : Nat → K → K → Bool) (Vs : Nat → V) (b x : V)
    (hb : dot (ML b) (ML b) ≠ 0) :
    ∃ x' flag why log, gmresSolve (linOps dot A ML sqrt lsq) vsmall kSub nRestart stop Vs b x = .ok (x', flag, why, log) ∧
      Cycles dot A ML b x log ∧ (x' = match log.getLast? with | none => x | some e => e.1) ∧ log.length ≤ nRestart ∧
      (∀ e ∈ log, e.2 ≤ kSub) ∧ (∀ e ∈ log.dropLast, ∃ h beta, kSub ≤ (lsq e.2 h beta).2) := by
  have hsc : 0 < sqrt (dot (ML b) (ML b)) := by
    obtain ⟨h1, h2⟩ := hs _ (pos (ML b))
    refine lt_of_le_of_ne h1 (fun e => hb ?_)
    rw [← h2, ← e, mul_zero]
  have key : ∀ (n i : Nat) (Vs : Nat → V) (hh : Nat → Nat → K) (x : V) (l : List (V × Nat)), i + n = nRestart + 1 →
      (∀ i c, c + 1 < i → hh i c = 0) →
      ∃ x' i' why log, gmresLoop (linOps dot A ML sqrt lsq) vsmall kSub nRestart stop (ML b) (sqrt (dot (ML b) (ML b))) n i Vs hh x l =
          .ok (x', i', why, l ++ log) ∧ Cycles dot A ML b x log ∧ (x' = match log.getLast? with | none => x | some e => e.1) ∧
        log.length ≤ nRestart - i ∧ (∀ e ∈ log, e.2 ≤ kSub) ∧ (∀ e ∈ log.dropLast, ∃ h beta, kSub ≤ (lsq e.2 h beta).2) := by
    intro n
    induction n with
    | zero => intro i Vs hh x l _ _; exact ⟨x, i, .exhausted, [], by simp [gmresLoop], trivial, rfl, by simp, by simp, by simp⟩
    | succ n ih =>
      intro i Vs hh x l hi hz
      by_cases hns : stop i (resNorm (linOps dot A ML sqrt lsq) b x) (sqrt (dot (ML b) (ML b))) = true
      · exact ⟨x, i, .stopped, [], by rw [List.append_nil]; exact gmresLoop_stop (linOps dot A ML sqrt lsq) _ _ _ _ b _ _ _ _ _ _ _ hns, trivial, rfl, by simp, by simp, by simp⟩
      by_cases hnv : |resNorm (linOps dot A ML sqrt lsq) b x| < vsmall
      · exact ⟨x, i, .negligible, [], by rw [List.append_nil]; exact gmresLoop_negligible (linOps dot A ML sqrt lsq) _ _ _ _ b _ _ _ _ _ _ _ hns hnv, trivial, rfl,
          by simp, by simp, by simp⟩
      by_cases hni : i = nRestart
      · exact ⟨x, i, .lastRestart, [], by rw [List.append_nil]; exact gmresLoop_last (linOps dot A ML sqrt lsq) _ _ _ _ b _ _ _ _ _ _ _ hns hnv hni, trivial, rfl,
          by simp, by simp, by simp⟩
      obtain ⟨v, hvdef⟩ : ∃ v, v = ML (A x) + (-1 : K) • ML b := ⟨_, rfl⟩
      obtain ⟨beta, hbeta⟩ : ∃ beta, beta = sqrt (dot v v) := ⟨_, rfl⟩
      have hnv' : ¬ |beta| < vsmall := by rw [hbeta, hvdef]; exact hnv
      obtain ⟨b0, b1⟩ := hs (dot v v) (pos v)
      rw [← hbeta] at b0 b1
      have bpos : 0 < beta := by
        rw [abs_of_nonneg b0] at hnv'
        linarith [not_lt.mp hnv']
      have hr : ML (b - A x) = beta • ((-1 / beta) • v) := by
        rw [smul_smul, mul_div_cancel₀ _ bpos.ne', hvdef, map_sub]
        module
      have I : Arn dot A ML ((-1 / beta) • v) 0 (upd Vs 0 ((-1 / beta) • v)) hh := by
        refine ⟨upd_self _ _ _, ?_, by simp, hz, ?_⟩
        · intro i hi k hk
          obtain rfl : i = 0 := by omega
          obtain rfl : k = 0 := by omega
          rw [upd_self, map_smul, map_smul, LinearMap.smul_apply, ← b1, if_pos rfl, smul_eq_mul, smul_eq_mul]
          field_simp
        · intro i hi
          obtain rfl : i = 0 := by omega
          exact Submodule.subset_span ⟨0, by simp, upd_self _ _ _⟩
      obtain ⟨j, Vs', h', f1, _, f3, f4⟩ := arnoldi_spec symm pos sqrt hs _ hsc _ kSub 0 _ hh I
      have hbeq : resNorm (linOps dot A ML sqrt lsq) b x = beta := by rw [hbeta, hvdef]; rfl
      have hcyc := gmresLoop_cycle (linOps dot A ML sqrt lsq) vsmall kSub nRestart stop b n i Vs hh x l hns hnv hni j Vs' h'
        (by rw [hbeq]; rw [hvdef] at f1; exact f1)
      rw [hbeq] at hcyc
      change gmresLoop _ _ _ _ _ (ML b) (sqrt (dot (ML b) (ML b))) _ _ _ _ _ _ = _ at hcyc
      rw [hcyc]
      by_cases hj : j < 1
      · exact ⟨x, i, .noColumn, [], by rw [if_pos hj, List.append_nil], trivial, rfl, by simp, by simp, by simp⟩
      rw [if_neg hj]
      change ∃ x' i' why log, (if (lsq j h' beta).2 < kSub then _ else _) = _ ∧ _
      have hmin := cycle_min lsq hl b x beta _ hr j Vs' h' f4
      have hlt : i < nRestart := by omega
      split
      · rename_i hrank
        exact ⟨_, i, _, [(_, j)], rfl, ⟨by omega, hmin, trivial⟩, rfl, by simp; omega, by simp; omega, by simp⟩
      · rename_i hrank
        obtain ⟨x', i', why, log, g1, g2, g3, g4, g5, g6⟩ := ih (i + 1) Vs' h' (addBasis Vs' (lsq j h' beta).1 j x)
          (l ++ [(addBasis Vs' (lsq j h' beta).1 j x, j)]) (by omega) f4.zero
        refine ⟨x', i', why, (addBasis Vs' (lsq j h' beta).1 j x, j) :: log, ?_, ⟨by omega, hmin, g2⟩, ?_, ?_, ?_, ?_⟩
        · rw [List.append_assoc] at g1; exact g1
        · rw [g3]
          cases log with
          | nil => rfl
          | cons e t =>
            rw [List.getLast?_cons_cons]
            cases h : (e :: t).getLast? with
            | none => simp at h
            | some q => rfl
        · simp only [List.length_cons]; omega
        · intro e he
          rcases List.mem_cons.mp he with rfl | he
          · simp only; omega
          · exact g5 e he
        · intro e he
          cases log with
          | nil => simp at he
          | cons q t =>
            rw [List.dropLast_cons₂] at he
            rcases List.mem_cons.mp he with rfl | he
            · exact ⟨h', beta, not_lt.mp hrank⟩
            · exact g6 e he
  obtain ⟨x', i', why, log, h1, h2, h3, h4, h5, h6⟩ := key (nRestart + 1) 0 Vs (fun _ _ => 0) x [] (by omega) (fun _ _ _ => rfl)
  refine ⟨x', decide (i' < nRestart), why, log, ?_, h2, h3, h4, h5, h6⟩
  unfold gmresSolve
  simp only [linOps] at h1 ⊢
  rw [h1]
  rfl

/-- the usual inner product of the plane -/
def planeDot : (ℝ × ℝ) →ₗ[ℝ] (ℝ × ℝ) →ₗ[ℝ] ℝ :=
  LinearMap.mk₂ ℝ (fun u v => u.1 * v.1 + u.2 * v.2) (by intros; simp; ring) (by intros; simp; ring) (by intros; simp; ring)
    (by intros; simp; ring)

/-- a quarter turn -/
def planeRot : (ℝ × ℝ) →ₗ[ℝ] (ℝ × ℝ) :=
  { toFun := fun u => (-u.2, u.1), map_add' := by intros; ext <;> simp <;> ring, map_smul' := by intros; ext <;> simp }

/-- The hypotheses are met: real square roots, an existing least squares routine, and a plane with a rotation for `A`. -/
example (b x : ℝ × ℝ) (hb : b ≠ 0) : ∃ lsq : Nat → (Nat → Nat → ℝ) → ℝ → (Nat → ℝ) × Nat, ∃ x' flag why log,
    gmresSolve (linOps planeDot planeRot LinearMap.id Real.sqrt lsq) (1 / 10 ^ 200) 2 3 (fun _ r s => decide (r < s / 10)) (fun _ => 0) b x =
      .ok (x', flag, why, log) ∧ Cycles planeDot planeRot LinearMap.id b x log := by
  obtain ⟨lsq, hl, _⟩ := exists_lsq (K := ℝ)
  have hpos : ∀ u : ℝ × ℝ, 0 ≤ planeDot u u := fun u => by simp [planeDot]; nlinarith [mul_self_nonneg u.1, mul_self_nonneg u.2]
  obtain ⟨x', flag, why, log, h1, h2, _⟩ := gmres_minimizes (dot := planeDot) (A := planeRot) (ML := LinearMap.id)
    (fun u v => by simp [planeDot]; ring) hpos Real.sqrt (fun a ha => ⟨Real.sqrt_nonneg a, Real.mul_self_sqrt ha⟩) lsq hl (1 / 10 ^ 200)
    (by positivity) 2 3 (fun _ r s => decide (r < s / 10)) (fun _ => 0) b x (by
      simp only [planeDot, LinearMap.id_coe, id_eq, LinearMap.mk₂_apply]
      intro h
      have h1 : b.1 = 0 := by nlinarith [mul_self_nonneg b.1, mul_self_nonneg b.2]
      have h2 : b.2 = 0 := by nlinarith [mul_self_nonneg b.1, mul_self_nonneg b.2]
      exact hb (Prod.ext h1 h2))
  exact ⟨lsq, x', flag, why, log, h1, h2⟩

omit [IsStrictOrderedRing K] in
/-- The preconditioned residual never increases from cycle to cycle. -/
theorem cycles_decrease (b : V) (x : V) (l : List (V × Nat)) (h : Cycles dot A ML b x l) :
    ∀ e ∈ l, resSq dot A ML b e.1 ≤ resSq dot A ML b x := by
  induction l generalizing x with
  | nil => simp
  | cons e t ih =>
    obtain ⟨_, h2, h3⟩ := h
    have h0 : resSq dot A ML b e.1 ≤ resSq dot A ML b x := by simpa using h2 (fun _ => 0)
    intro q hq
    rcases List.mem_cons.mp hq with rfl | hq
    · exact h0
    · exact le_trans (ih _ h3 q hq) h0

/-- C33 is false.  One unknown, `A = ML = 1`, `b = 1`, start at zero, any restart length at least one, at least one restart, a
criterion that accepts only residuals below a tenth: the solver returns true, and the returned vector is zero, whose residual is
one.  (The search space breaks down because the first basis vector already spans it.) -/
theorem gmres_breakdown_wrong (kSub nRestart : Nat) (hk : 0 < kSub) (hn : 0 < nRestart) (lsq : Nat → (Nat → Nat → ℚ) → ℚ → (Nat → ℚ) × Nat)
    (Vs : Nat → ℚ) :
    gmresSolve { FA := fun x => x, FML := fun x => x, dot := fun u v => u * v, sqrt := fun a => if a = 1 then 1 else 0, lsq := lsq }
      (1 / 10 ^ 200) kSub nRestart (fun _ r _ => decide (r < 1 / 10)) Vs (1 : ℚ) 0 = .ok (0, true, .noColumn, []) := by
  obtain ⟨k, rfl⟩ : ∃ k, kSub = k + 1 := ⟨kSub - 1, by omega⟩
  unfold gmresSolve
  simp only [gmresLoop]
  norm_num [arnoldi, gramSchmidt, upd, show ¬ (0 = nRestart) by omega, hn]

end DNDSR.Krylov
