import Verif.Spec.ODERk
import Verif.Proof.ODEBdf
import Mathlib.Tactic.NormNum

/-!
# Runge-Kutta stages
-/

namespace DNDSR.ODE

open DNDSR.IMap DNDSR.Defines Finset

set_option linter.unusedSectionVars false

variable {σ D K V : Type}

theorem dualLoop_last [One K] (cb : Callbacks σ D K V) (dt alpha ct : K) (stopId : Int) (resid : V → V → Res (V × V))
    (n : Nat) (l l' : Loop σ K V) (h : dualLoop cb dt alpha ct stopId resid n l = .ok l') (hn : 0 < n) :
    ∃ c cs, l'.calls = cs ++ [c] ∧ l'.rhsbuf = c.f ∧ l'.rhs = c.rhs := by
  induction n generalizing l with
  | zero => omega
  | succ n ih =>
    simp only [dualLoop, Res.bind_ok_iff] at h
    obtain ⟨⟨q, r⟩, hq, h⟩ := h
    simp only at h
    split at h
    · simp only [Res.pure_eq, Res.ok.injEq] at h
      subst h
      exact ⟨_, _, rfl, rfl, rfl⟩
    · cases n with
      | zero =>
        simp only [dualLoop, Res.pure_eq, Res.ok.injEq] at h
        subst h
        exact ⟨_, _, rfl, rfl, rfl⟩
      | succ m => exact ih _ h (by omega)

theorem dualSolve_last [One K] (cb : Callbacks σ D K V) (maxIter : Int) (dt alpha ct : K) (stopId : Int)
    (resid : V → V → Res (V × V)) (s : σ) (x rhs rhsbuf xinc : V) (l' : Loop σ K V)
    (h : dualSolve cb maxIter dt alpha ct stopId resid s x rhs rhsbuf xinc = .ok l') (hm : 1 ≤ maxIter) :
    ∃ c cs, l'.calls = cs ++ [c] ∧ l'.rhsbuf = c.f ∧ l'.rhs = c.rhs := by
  unfold dualSolve at h
  rw [Res.bind_ok_iff] at h
  obtain ⟨l, hl, h⟩ := h
  obtain ⟨c, cs, h1, h2, h3⟩ := dualLoop_last _ _ _ _ _ _ _ _ _ hl (by omega)
  split at h <;> simp only [Res.pure_eq, Res.ok.injEq] at h <;> subst h <;> exact ⟨c, cs, h1, h2, h3⟩

section Field

variable [Field K] [AddCommGroup V] [Module K V]

theorem Tableau.Sized.a {T : Tableau K} (hT : T.Sized) (i j : Nat) (hi : i < T.n) (hj : j < T.n) : T.a i j = .ok (T.ea i j) := by
  have hr : (T.A[i]'hi).length = T.n := hT.2.2 _ (List.getElem_mem hi)
  unfold Tableau.a Tableau.ea idx
  rw [List.getElem?_eq_getElem hi]
  simp only [Res.ok_bind, List.getD_eq_getElem?_getD, List.getElem?_eq_getElem hi, Option.getD_some]
  rw [List.getElem?_eq_getElem (by omega)]
  rfl

theorem addStages_eq (T : Tableau K) (hT : T.Sized) (ks : List V) (hks : ks.length = T.n) (i : Nat) (hi : i < T.n) (acc : V)
    (j : Nat) (hj : j ≤ T.n) :
    addStages T ks i j acc = .ok (acc + ∑ m ∈ range j, T.ea i m • ks.getD m 0) := by
  induction j with
  | zero => simp [addStages]
  | succ j ih =>
    simp only [addStages]
    rw [ih (by omega), Res.ok_bind]
    unfold idx
    rw [List.getElem?_eq_getElem (by omega)]
    simp only [Res.ok_bind]
    rw [hT.a i j hi (by omega), Res.ok_bind, sum_range_succ, add_assoc]
    simp [List.getD_eq_getElem?_getD, List.getElem?_eq_getElem (show j < ks.length by omega)]

theorem addFinal_eq (T : Tableau K) (hT : T.Sized) (ks : List V) (hks : ks.length = T.n) (dt : K) (acc : V) (j : Nat) (hj : j ≤ T.n) :
    addFinal T ks dt j acc = .ok (acc + ∑ m ∈ range j, (T.eb m * dt) • ks.getD m 0) := by
  have hb := hT.1
  induction j with
  | zero => simp [addFinal]
  | succ j ih =>
    simp only [addFinal]
    rw [ih (by omega), Res.ok_bind]
    unfold idx
    rw [List.getElem?_eq_getElem (by omega)]
    simp only [Res.ok_bind]
    rw [List.getElem?_eq_getElem (by omega)]
    simp only [Res.ok_bind]
    rw [sum_range_succ, add_assoc]
    simp [Tableau.eb, List.getD_eq_getElem?_getD, List.getElem?_eq_getElem (show j < ks.length by omega),
      List.getElem?_eq_getElem (show j < T.b.length by omega)]

/-- what a stage does, in terms of the stage right-hand sides `ks` -/
def StageOk (T : Tableau K) (maxIter : Int) (dt : K) (x : V) (ks : List V) (i : Nat) (l : Loop σ K V) : Prop :=
  (T.scheme = 1 ∧ i = 0 → l.calls = [] ∧ l.x = x) ∧
  (¬ (T.scheme = 1 ∧ i = 0) →
    Starts l x maxIter ∧ (1 ≤ maxIter → ∃ c cs, l.calls = cs ++ [c] ∧ ks.getD i 0 = c.f) ∧
    ∀ c ∈ l.calls, c.ct = T.ec i ∧
      c.Solves dt (T.ea i i) ((1 / dt) • x + ∑ j ∈ range i, T.ea i j • ks.getD j 0))

theorem StageOk.congr {T : Tableau K} {maxIter : Int} {dt : K} {x : V} {ks ks' : List V} {i : Nat} {l : Loop σ K V}
    (h : StageOk T maxIter dt x ks i l) (hk : ∀ j ≤ i, ks'.getD j 0 = ks.getD j 0) : StageOk T maxIter dt x ks' i l := by
  refine ⟨h.1, fun hn => ?_⟩
  obtain ⟨h1, h2, h3⟩ := h.2 hn
  refine ⟨h1, ?_, ?_⟩
  · rw [hk i (le_refl _)]; exact h2
  · rw [sum_congr rfl fun j hj => by rw [hk j (by rw [mem_range] at hj; omega)]]
    exact h3

theorem sdirkStage_ok (T : Tableau K) (hT : T.Sized) (cb : Callbacks σ D K V) (maxIter : Int) (dt : K) (dTau : D) (x xinc : V)
    (i : Nat) (hi : i < T.n) (o : Sdirk V) (ho : o.rhsbuf.length = T.n) (s : σ) :
    ∃ o' l, sdirkStage T cb maxIter dt dTau x xinc i o s = .ok (o', l) ∧ o'.rhsbuf.length = T.n ∧ o'.hasLast = o.hasLast ∧
      (∀ j, j ≠ i → o'.rhsbuf.getD j 0 = o.rhsbuf.getD j 0) ∧ StageOk T maxIter dt x o'.rhsbuf i l ∧
      (T.scheme = 1 → i = 0 → 1 ≤ maxIter → o'.rhsbuf.getD 0 0 =
        if o.hasLast then o.rhsbuf.getD (T.n - 1) 0 else (cb.frhs s x dTau 2147483647 (T.ec 0) 0).2) := by
  have hset : ∀ (k : V) (j : Nat), j ≠ i → (o.rhsbuf.set i k).getD j 0 = o.rhsbuf.getD j 0 := by
    intro k j hj
    rw [List.getD_eq_getElem?_getD, List.getElem?_set_ne (by omega), List.getD_eq_getElem?_getD]
  have hself : ∀ k : V, (o.rhsbuf.set i k).getD i 0 = k := by
    intro k
    rw [List.getD_eq_getElem?_getD, List.getElem?_set_self (by omega)]
    rfl
  have hc : idx T.c i = .ok (T.ec i) := by
    have := hT.2.1
    unfold idx Tableau.ec
    rw [List.getD_eq_getElem?_getD, List.getElem?_eq_getElem (by omega)]
    rfl
  unfold sdirkStage
  rw [show idx o.rhsbuf i = .ok (o.rhsbuf.getD i 0) by
    unfold idx
    rw [List.getD_eq_getElem?_getD, List.getElem?_eq_getElem (by omega)]
    rfl]
  simp only [Res.ok_bind, hc]
  by_cases hs : T.scheme = 1 ∧ i = 0
  · rw [if_pos hs]
    obtain ⟨hs1, rfl⟩ := hs
    by_cases hm : 1 ≤ maxIter
    · rw [if_pos hm]
      by_cases hl : o.hasLast
      · rw [if_pos hl, show idx o.rhsbuf (T.A.length - 1) = .ok (o.rhsbuf.getD (T.n - 1) 0) by
          unfold idx
          rw [List.getD_eq_getElem?_getD, show T.A.length - 1 = T.n - 1 from rfl, List.getElem?_eq_getElem (by omega)]
          rfl]
        simp only [Res.ok_bind]
        refine ⟨_, _, rfl, by simp [ho], rfl, hset _, ⟨fun _ => ⟨rfl, rfl⟩, fun h => absurd ⟨hs1, rfl⟩ h⟩, fun _ _ _ => ?_⟩
        rw [if_pos hl]; exact hself _
      · rw [if_neg hl]
        refine ⟨_, _, rfl, by simp [ho], rfl, hset _, ⟨fun _ => ⟨rfl, rfl⟩, fun h => absurd ⟨hs1, rfl⟩ h⟩, fun _ _ _ => ?_⟩
        rw [if_neg hl]; exact hself _
    · rw [if_neg hm]
      exact ⟨_, _, rfl, ho, rfl, fun _ _ => rfl, ⟨fun _ => ⟨rfl, rfl⟩, fun h => absurd ⟨hs1, rfl⟩ h⟩, fun _ _ h => absurd h hm⟩
  · rw [if_neg hs, hT.a i i hi hi, Res.ok_bind]
    obtain ⟨l, hl, hcalls⟩ := dualSolve_calls cb maxIter dt (T.ea i i) (T.ec i) (i + 1) (stageResid T o.rhsbuf i dt x) s x o.rhs
      (o.rhsbuf.getD i 0) xinc
      (fun c => c.ct = T.ec i ∧ c.Solves dt (T.ea i i) ((1 / dt) • x + ∑ j ∈ range i, T.ea i j • o.rhsbuf.getD j 0))
      (by
        intro y f
        refine ⟨(1 / dt) • x + ∑ j ∈ range i, T.ea i j • o.rhsbuf.getD j 0,
          (1 / dt) • x + ∑ j ∈ range i, T.ea i j • o.rhsbuf.getD j 0 + (-1 / dt) • y + T.ea i i • f, ?_, rfl, rfl, rfl, rfl, ?_⟩
        · unfold stageResid
          simp only
          rw [addStages_eq T hT o.rhsbuf ho i hi _ i (by omega), Res.ok_bind, hT.a i i hi hi, Res.ok_bind]
          rfl
        · simp only
          rw [neg_div, neg_smul, sub_eq_add_neg])
    rw [hl, Res.ok_bind]
    refine ⟨_, _, rfl, by simp [ho], rfl, hset _, ⟨fun h => absurd h hs, fun _ => ⟨dualSolve_starts _ _ _ _ _ _ _ _ _ _ _ _ _ hl, ?_, ?_⟩⟩,
      fun h1 h2 => absurd ⟨h1, h2⟩ hs⟩
    · intro hm
      obtain ⟨c, cs, h1, h2, _⟩ := dualSolve_last _ _ _ _ _ _ _ _ _ _ _ _ _ hl hm
      refine ⟨c, cs, h1, ?_⟩
      rw [hself, h2]
    · rw [sum_congr rfl fun j hj => by rw [hset l.rhsbuf j (by rw [mem_range] at hj; omega)]]
      exact hcalls

theorem sdirkStages_ok (T : Tableau K) (hT : T.Sized) (cb : Callbacks σ D K V) (maxIter : Int) (dt : K) (dTau : D) (x xinc : V)
    (o : Sdirk V) (ho : o.rhsbuf.length = T.n) (s : σ) (m : Nat) (hm : m ≤ T.n) :
    ∃ o' s' ls, sdirkStages T cb maxIter dt dTau x xinc m o s = .ok (o', s', ls) ∧ o'.rhsbuf.length = T.n ∧
      o'.hasLast = o.hasLast ∧ ls.length = m ∧ (∀ j, m ≤ j → o'.rhsbuf.getD j 0 = o.rhsbuf.getD j 0) ∧
      (∀ (i : Nat) (l : Loop σ K V), ls[i]? = some l → StageOk T maxIter dt x o'.rhsbuf i l) ∧
      (T.scheme = 1 → 0 < m → 1 ≤ maxIter → o'.rhsbuf.getD 0 0 =
        if o.hasLast then o.rhsbuf.getD (T.n - 1) 0 else (cb.frhs s x dTau 2147483647 (T.ec 0) 0).2) := by
  induction m with
  | zero => exact ⟨o, s, [], rfl, ho, rfl, rfl, fun _ _ => rfl, by simp, fun _ h => absurd h (by omega)⟩
  | succ m ih =>
    obtain ⟨o1, s1, ls, e1, h1, h2, h3, h4, h5, h6⟩ := ih (by omega)
    obtain ⟨o2, l, e2, g1, g2, g3, g4, g5⟩ := sdirkStage_ok T hT cb maxIter dt dTau x xinc m (by omega) o1 h1 s1
    refine ⟨o2, l.s, ls ++ [l], ?_, g1, by rw [g2, h2], by simp [h3], ?_, ?_, ?_⟩
    · simp only [sdirkStages]
      rw [e1, Res.ok_bind]
      simp only
      rw [e2, Res.ok_bind]
      rfl
    · intro j hj
      rw [g3 j (by omega), h4 j (by omega)]
    · intro i l' hl
      by_cases him : i < m
      · rw [List.getElem?_append_left (by omega)] at hl
        exact (h5 i l' hl).congr fun j hj => g3 j (by omega)
      · rw [List.getElem?_append_right (by omega)] at hl
        have hi : i = m := by
          have := (List.getElem?_eq_some_iff.1 hl).1
          simp at this
          omega
        subst hi
        simp [h3] at hl
        subst hl
        exact g4
    · intro hs _ hmx
      by_cases hm0 : m = 0
      · subst hm0
        rw [g5 hs rfl hmx]
        simp only [sdirkStages, Res.pure_eq, Res.ok.injEq, Prod.mk.injEq] at e1
        obtain ⟨rfl, rfl, _⟩ := e1
        rfl
      · rw [g3 0 (by omega), h6 hs (by omega) hmx]

end Field
end DNDSR.ODE
