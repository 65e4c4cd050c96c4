import Verif.Proof.ODE

/-!
# One BDF step in terms of the history
-/

namespace DNDSR.ODE

open DNDSR.IMap DNDSR.Defines Finset

set_option linter.unusedSectionVars false

variable {σ D K V : Type}

/-- the loop starts at the step's state and makes a call if it may iterate at all -/
def Starts (l : Loop σ K V) (x : V) (maxIter : Int) : Prop :=
  (l.calls.length : Int) ≤ max maxIter 0 ∧ (1 ≤ maxIter → ∃ c cs, l.calls = c :: cs ∧ c.x = x)

theorem dualLoop_starts [One K] (cb : Callbacks σ D K V) (dt alpha ct : K) (stopId : Int) (resid : V → V → Res (V × V))
    (n : Nat) (l l' : Loop σ K V) (h : dualLoop cb dt alpha ct stopId resid n l = .ok l') :
    ∃ t, l'.calls = l.calls ++ t ∧ t.length ≤ n ∧ (0 < n → ∃ c cs, t = c :: cs ∧ c.x = l.x) := by
  induction n generalizing l with
  | zero =>
    simp only [dualLoop, Res.pure_eq, Res.ok.injEq] at h
    subst h
    exact ⟨[], by simp⟩
  | succ n ih =>
    simp only [dualLoop, Res.bind_ok_iff] at h
    obtain ⟨⟨q, r⟩, hq, h⟩ := h
    simp only at h
    split at h
    · simp only [Res.pure_eq, Res.ok.injEq] at h
      subst h
      exact ⟨_, rfl, by simp, fun _ => ⟨_, _, rfl, rfl⟩⟩
    · obtain ⟨t, ht, hl, _⟩ := ih _ h
      refine ⟨_ :: t, by rw [ht, List.append_assoc]; rfl, by simp; omega, fun _ => ⟨_, _, rfl, rfl⟩⟩

theorem dualSolve_starts [One K] (cb : Callbacks σ D K V) (maxIter : Int) (dt alpha ct : K) (stopId : Int)
    (resid : V → V → Res (V × V)) (s : σ) (x rhs rhsbuf xinc : V) (l' : Loop σ K V)
    (h : dualSolve cb maxIter dt alpha ct stopId resid s x rhs rhsbuf xinc = .ok l') : Starts l' x maxIter := by
  unfold dualSolve at h
  rw [Res.bind_ok_iff] at h
  obtain ⟨l, hl, h⟩ := h
  obtain ⟨t, ht, htl, hts⟩ := dualLoop_starts _ _ _ _ _ _ _ _ _ hl
  have : l'.calls = t := by
    split at h <;> simp only [Res.pure_eq, Res.ok.injEq] at h <;> subst h <;> simpa using ht
  rw [Starts, this]
  refine ⟨by omega, fun h1 => ?_⟩
  obtain ⟨c, cs, hc, hx⟩ := hts (by omega)
  exact ⟨c, cs, hc, hx⟩

section Field

variable [Field K] [AddCommGroup V] [Module K V]

theorem Window.frame {k : Int} {b b' : BDF K V} {h : List (V × K)} (w : Window k b h) (h1 : b'.kBDF = b.kBDF)
    (h2 : b'.cnPrev = b.cnPrev) (h3 : b'.prevStart = b.prevStart) (h4 : b'.xPrevs = b.xPrevs) (h5 : b'.dtPrevs = b.dtPrevs) :
    Window k b' h := by
  obtain ⟨k0, k4, kk, cn, lx, ld, s0, xs, ds⟩ := w
  constructor
  · exact k0
  · exact k4
  · rw [h1, kk]
  · rw [h2, cn]
  · rw [h4, lx]
  · rw [h5, ld]
  · rw [h3]; exact s0
  · rw [h2, h3, h4]; exact xs
  · rw [h2, h3, h5]; exact ds

/-- the number of stored states in use -/
theorem Window.order {k : Int} {b : BDF K V} {h : List (V × K)} (w : Window k b h) :
    b.cnPrev = (min h.length (k.toNat - 1) : Nat) ∧ 0 ≤ b.cnPrev := by
  have := w.cn; have := w.k0; omega

theorem bdf_sum [CharZero K] (q : Nat) (hq : q ≤ 3) (x : V) (h : List (V × K)) (hl : q ≤ h.length) (dt : K) :
    ∃ (c0 c1 : K) (wt : Nat → K), bdfCoef K q 0 = .ok c0 ∧ bdfCoef K q 1 = .ok c1 ∧ (∀ i : Nat, i < q → bdfCoef K q (2 + i) = .ok (wt i)) ∧
      c0 = ((bdfFormula K (q + 1))[0]?).getD 0 ∧
      (c1 / dt) • x + ∑ i ∈ range q, (wt i / dt) • ((h[i]?).map Prod.fst).getD 0 =
        (1 / dt) • weighted (bdfFormula K (q + 1)) (x :: h.map Prod.fst) := by
  have : q = 0 ∨ q = 1 ∨ q = 2 ∨ q = 3 := by omega
  rcases this with rfl | rfl | rfl | rfl
  · refine ⟨1, 1, fun _ => 0, by simp [bdfCoef, at', idx, bdfCoefs], by simp [bdfCoef, at', idx, bdfCoefs], by omega, rfl, ?_⟩
    simp [weighted, bdfFormula]
  · match h, hl with
    | a :: t, _ =>
      refine ⟨2 / 3, 4 / 3, fun _ => -1 / 3, by simp [bdfCoef, at', idx, bdfCoefs], by simp [bdfCoef, at', idx, bdfCoefs], ?_, rfl, ?_⟩
      · intro i hi
        obtain rfl : i = 0 := by omega
        simp [bdfCoef, at', idx, bdfCoefs]
      · simp [weighted, bdfFormula, sum_range_succ]
        module
  · match h, hl with
    | a :: b :: t, _ =>
      refine ⟨6 / 11, 18 / 11, fun i => if i = 0 then -9 / 11 else 2 / 11, by simp [bdfCoef, at', idx, bdfCoefs], by simp [bdfCoef, at', idx, bdfCoefs], ?_, rfl, ?_⟩
      · intro i hi
        have : i = 0 ∨ i = 1 := by omega
        rcases this with rfl | rfl <;> simp [bdfCoef, at', idx, bdfCoefs]
      · simp [weighted, bdfFormula, sum_range_succ]
        module
  · match h, hl with
    | a :: b :: c :: t, _ =>
      refine ⟨12 / 25, 48 / 25, fun i => if i = 0 then -36 / 25 else if i = 1 then 16 / 25 else -3 / 25,
        by simp [bdfCoef, at', idx, bdfCoefs], by simp [bdfCoef, at', idx, bdfCoefs], ?_, rfl, ?_⟩
      · intro i hi
        have : i = 0 ∨ i = 1 ∨ i = 2 := by omega
        rcases this with rfl | rfl | rfl <;> simp [bdfCoef, at', idx, bdfCoefs]
      · simp [weighted, bdfFormula, sum_range_succ]
        module

end Field

section Ordered

variable [Field K] [LinearOrder K] [IsStrictOrderedRing K] [AddCommGroup V] [Module K V]

theorem checkDts_ok (k : Int) (b : BDF K V) (h : List (V × K)) (w : Window k b h) (dt : K) (hdt : 0 < dt)
    (hd : ∀ p ∈ h, p.2 = dt) (n : Nat) (hn : (n : Int) ≤ b.cnPrev) : checkDts b (k - 1) dt n = .ok () := by
  induction n with
  | zero => rfl
  | succ n ih =>
    have hcn := w.cn
    have hx := w.ds n (by omega)
    have hnl : n < h.length := by omega
    rw [List.getElem?_eq_getElem hnl] at hx
    simp only [checkDts]
    rw [ih (by omega), Res.ok_bind, Res.assert_true _ (by omega), Res.ok_bind, cmod_emod _ _ (by omega), Res.ok_bind,
      at'_ok _ _ _ (Int.emod_nonneg _ (by omega)) hx, Res.ok_bind, Res.assert_true]
    rw [hd _ (List.getElem_mem hnl), sub_self, abs_zero]
    positivity

/-- one step -/
theorem bdfStep_spec (k : Int) (b : BDF K V) (h : List (V × K)) (w : Window k b h) (dt : K) (hdt : 0 < dt)
    (hd : ∀ p ∈ h, p.2 = dt) (cb : Callbacks σ D K V) (maxIter : Int) (s : σ) (x xinc : V) :
    ∃ b' l, bdfStep cb maxIter dt b s x xinc = .ok (b', l) ∧ Window k b' ((x, dt) :: h) ∧ Starts l x maxIter ∧
      ∀ c ∈ l.calls, c.ct = 1 ∧ c.Solves dt (((bdfFormula K (min (h.length + 1) k.toNat))[0]?).getD 0)
        ((1 / dt) • weighted (bdfFormula K (min (h.length + 1) k.toNat)) (x :: h.map Prod.fst)) := by
  obtain ⟨hq, hq0⟩ := w.order
  have hk0 := w.k0
  have hk4 := w.k4
  obtain ⟨c0, c1, wt, e0, e1, ew, e2, e3⟩ := bdf_sum (K := K) (min h.length (k.toNat - 1)) (by omega) x h (by omega) dt
  have hm : min h.length (k.toNat - 1) + 1 = min (h.length + 1) k.toNat := by omega
  rw [hm] at e2 e3
  rw [← hq] at e0 e1 ew
  unfold bdfStep
  simp only [w.kk, Int.add_sub_cancel]
  rw [checkDts_ok k b h w dt hdt hd _ (by omega), Res.ok_bind, e0, Res.ok_bind]
  obtain ⟨l, hl, hc⟩ := dualSolve_calls cb maxIter dt c0 1 1 (bdfResid (bdfCoef K b.cnPrev) b dt x) s x b.rhs b.rhsbuf xinc
    (fun c => c.ct = 1 ∧ c.Solves dt c0 ((1 / dt) • weighted (bdfFormula K (min (h.length + 1) k.toNat)) (x :: h.map Prod.fst)))
    (by
      intro y f
      refine ⟨_, _, bdfResid_eq _ k b h w dt c0 c1 wt e0 e1 (fun i hi => ew i (by omega)) x y f, ?_⟩
      rw [hq] at *
      simp only [Int.toNat_natCast]
      rw [e3]
      exact ⟨trivial, rfl, rfl, rfl, rfl⟩)
  rw [hl, Res.ok_bind]
  have hw' : Window k { b with kBDF := k, rhs := l.rhs, rhsbuf := l.rhsbuf } h := w.frame w.kk.symm rfl rfl rfl rfl
  obtain ⟨b', hb', hw''⟩ := window_push k _ h hw' dt x
  rw [hb']
  refine ⟨b', l, rfl, hw'', dualSolve_starts _ _ _ _ _ _ _ _ _ _ _ _ _ hl, ?_⟩
  rw [← e2]
  exact hc

/-- the coefficients used after history `h` at order at most `k` -/
def vbdfFormulaAt (k : Int) (h : List (V × K)) (dt : K) : List K :=
  match h with
  | [] => [1, 1]
  | p :: _ => if k = 1 then [1, 1] else vbdfFormula p.2 dt

/-- one variable size step -/
theorem vbdfStep_spec (k : Int) (hk2 : k ≤ 2) (b : BDF K V) (h : List (V × K)) (w : Window k b h) (dt : K) (hdt : 0 < dt)
    (hd : ∀ p ∈ h, 0 < p.2) (cb : Callbacks σ D K V) (maxIter : Int) (s : σ) (x xinc : V) :
    ∃ b' l, vbdfStep cb maxIter dt b s x xinc = .ok (b', l) ∧ Window k b' ((x, dt) :: h) ∧ Starts l x maxIter ∧
      ∀ c ∈ l.calls, c.ct = 1 ∧ c.Solves dt (((vbdfFormulaAt k h dt)[0]?).getD 0)
        ((1 / dt) • weighted (vbdfFormulaAt k h dt) (x :: h.map Prod.fst)) := by
  obtain ⟨hq, hq0⟩ := w.order
  have hk0 := w.k0
  have key : ∃ (cs : List K) (c0 c1 : K) (wt : Nat → K), vbdfCoefs b dt = .ok cs ∧ at' cs 0 = .ok c0 ∧ at' cs 1 = .ok c1 ∧
      (∀ i : Nat, (i : Int) < b.cnPrev → at' cs (2 + i) = .ok (wt i)) ∧ c0 = ((vbdfFormulaAt k h dt)[0]?).getD 0 ∧
      (c1 / dt) • x + ∑ i ∈ range b.cnPrev.toNat, (wt i / dt) • ((h[i]?).map Prod.fst).getD 0 =
        (1 / dt) • weighted (vbdfFormulaAt k h dt) (x :: h.map Prod.fst) := by
    by_cases hz : b.cnPrev = 0
    · have hf : vbdfFormulaAt k h dt = [1, 1] := by
        unfold vbdfFormulaAt
        cases h with
        | nil => rfl
        | cons p t => simp only; rw [if_pos]; simp only [List.length_cons] at hq; omega
      rw [hf]
      refine ⟨[1, 1], 1, 1, fun _ => 0, by simp [vbdfCoefs, hz], rfl, rfl, by omega, rfl, ?_⟩
      simp [hz, weighted]
    · have hz1 : b.cnPrev = 1 := by omega
      obtain rfl : k = 2 := by omega
      match h, hq with
      | [], hq => simp at hq; omega
      | p :: t, hq =>
        have hdp := w.ds 0 (by omega)
        have hp := hd p (by simp)
        have n1 : p.2 + dt ≠ 0 := by positivity
        have n2 : p.2 + 2 * dt ≠ 0 := by positivity
        have n3 : p.2 ≠ 0 := by positivity
        have n4 : 1 + dt / (p.2 + dt) ≠ 0 := by positivity
        refine ⟨[1 / (1 + dt / (p.2 + dt)), 1 + dt / p.2 * (dt / (p.2 + dt)) / (1 + dt / (p.2 + dt)),
            -(dt / p.2) * (dt / (p.2 + dt)) / (1 + dt / (p.2 + dt))], _, _,
          fun _ => -(dt / p.2) * (dt / (p.2 + dt)) / (1 + dt / (p.2 + dt)), ?_, rfl, rfl, ?_, ?_, ?_⟩
        · unfold vbdfCoefs
          simp only [hz1, w.kk]
          rw [if_neg (by decide), if_pos (by decide), cmod_emod _ _ (by omega), Res.ok_bind,
            at'_ok _ _ p.2 (Int.emod_nonneg _ (by omega)) (by simpa using hdp), Res.ok_bind]
          rfl
        · intro i hi
          obtain rfl : i = 0 := by omega
          rfl
        · simp only [vbdfFormulaAt, vbdfFormula]
          simp
          field_simp
          ring
        · simp only [hz1, vbdfFormulaAt, vbdfFormula]
          simp [weighted]
          match_scalars <;> field_simp <;> ring
  obtain ⟨cs, c0, c1, wt, ecs, e0, e1, ew, e2, e3⟩ := key
  unfold vbdfStep
  rw [ecs, Res.ok_bind]
  simp only
  rw [e0, Res.ok_bind]
  obtain ⟨l, hl, hc⟩ := dualSolve_calls cb maxIter dt c0 1 1 (bdfResid (at' cs) b dt x) s x b.rhs b.rhsbuf xinc
    (fun c => c.ct = 1 ∧ c.Solves dt c0 ((1 / dt) • weighted (vbdfFormulaAt k h dt) (x :: h.map Prod.fst)))
    (by
      intro y f
      refine ⟨_, _, bdfResid_eq _ k b h w dt c0 c1 wt e0 e1 ew x y f, ?_⟩
      rw [e3]
      exact ⟨rfl, rfl, rfl, rfl, rfl⟩)
  rw [hl, Res.ok_bind]
  have hw' : Window k { b with rhs := l.rhs, rhsbuf := l.rhsbuf } h := w.frame rfl rfl rfl rfl rfl
  obtain ⟨b', hb', hw''⟩ := window_push k _ h hw' dt x
  rw [hb']
  refine ⟨b', l, rfl, hw'', dualSolve_starts _ _ _ _ _ _ _ _ _ _ _ _ _ hl, ?_⟩
  rw [← e2]
  exact hc

end Ordered
end DNDSR.ODE
