import Verif.Proof.CommSchedule

/-!
# C53: ghost communications complete under the split schedules
-/

namespace DNDSR.Sched

theorem ite_le_one (p : Prop) [Decidable p] : (if p then 1 else 0) ≤ 1 := by split <;> omega

theorem mul_ite_one (N : Nat) (p : Prop) [Decidable p] : N * (if p then 1 else 0) = if p then N else 0 := by
  split <;> simp

theorem recvsFirst_complete (n N : Nat) (reqs : Nat → List Req) (m : Nat → Nat) (eager : Nat → Nat → Nat → Bool)
    (hone : ∀ r, r < n → ∀ q, (reqs r).count q ≤ 1)
    (hpeer : ∀ r, r < n → ∀ q, q ∈ reqs r → q.peer < n ∧ (⟨!q.recv, r⟩ : Req) ∈ reqs q.peer)
    (hrf : ∀ r, r < n → ∀ (i : Nat) (q : Req), (reqs r)[i]? = some q → q.recv = true → i < m r) :
    Completes n (fun r => rounds N (oneByOne (reqs r) (m r))) eager := by
  apply rounds_complete
  · intro r hr q; rw [count_oneByOne]; exact hone r hr q
  · intro r hr q hq
    obtain ⟨h1, h2⟩ := hpeer r hr q (wait_mem_oneByOne _ _ _ hq)
    exact ⟨h1, (start_mem_oneByOne _ _ _).2 h2⟩
  · intro r j q hr hj
    refine Or.inr ?_
    obtain ⟨hpn, hpm⟩ := hpeer r hr q (wait_mem_oneByOne _ _ _ (List.mem_of_getElem? hj))
    have key : ∀ s, s < n → ∀ (q2 : Req), q2 ∈ reqs s → q2.recv = true → ∀ (j2 : Nat) (q3 : Req),
        (oneByOne (reqs s) (m s))[j2]? = some (.wait q3) → Instr.start q2 ∈ (oneByOne (reqs s) (m s)).take j2 := by
      intro s hs q2 hq2 hrec j2 q3 hj2
      obtain ⟨i, _, hb⟩ := before_wait _ _ _ _ hj2
      obtain ⟨i', hi'⟩ := List.mem_iff_getElem?.1 hq2
      exact hb i' q2 hi' (Or.inr (Or.inl (hrf s hs i' q2 hi' hrec)))
    intro j' q' hj'
    cases hrec : q.recv with
    | false =>
      rw [hrec] at hpm
      exact Or.inr (Or.inl (key q.peer hpn _ hpm rfl j' q' hj'))
    | true =>
      rw [hrec] at hpm
      obtain ⟨i, hi, hb⟩ := before_wait _ _ _ _ hj'
      cases hrec' : q'.recv with
      | true =>
        obtain ⟨i', hi'⟩ := List.mem_iff_getElem?.1 hpm
        exact Or.inr (Or.inl (hb i' _ hi' (Or.inr (Or.inr (hrf q.peer hpn i q' hi hrec')))))
      | false =>
        obtain ⟨hpn', hpm'⟩ := hpeer q.peer hpn q' (List.mem_of_getElem? hi)
        rw [hrec'] at hpm'
        refine Or.inr (Or.inr ⟨rfl, hpn', ?_⟩)
        intro j2 q2 hj2
        exact key q'.peer hpn' _ hpm' rfl j2 q2 hj2

section
variable {n : Nat} {pull push : Nat → List Nat}

theorem pull_one (hP : Pattern n pull push) (r : Nat) (hr : r < n) (q : Req) :
    (pullReqs (pull r) (push r)).count q ≤ 1 := by
  rw [count_pullReqs _ _ _ (hP.pullNodup r hr) (hP.pushNodup r hr)]
  exact ite_le_one _

theorem push_one (hP : Pattern n pull push) (r : Nat) (hr : r < n) (q : Req) :
    (pushReqs (pull r) (push r)).count q ≤ 1 := by
  rw [count_pushReqs _ _ _ (hP.pullNodup r hr) (hP.pushNodup r hr)]
  exact ite_le_one _

theorem pull_peer (hP : Pattern n pull push) (r : Nat) (hr : r < n) (q : Req) (hq : q ∈ pullReqs (pull r) (push r)) :
    q.peer < n ∧ (⟨!q.recv, r⟩ : Req) ∈ pullReqs (pull q.peer) (push q.peer) := by
  rw [mem_pullReqs] at hq ⊢
  cases hrec : q.recv with
  | true =>
    rw [hrec] at hq
    have h := hP.pullLt r hr _ hq
    exact ⟨h, (hP.agree r q.peer hr h).1 hq⟩
  | false =>
    rw [hrec] at hq
    have h := hP.pushLt r hr _ hq
    exact ⟨h, (hP.agree q.peer r h hr).2 hq⟩

theorem push_peer (hP : Pattern n pull push) (r : Nat) (hr : r < n) (q : Req) (hq : q ∈ pushReqs (pull r) (push r)) :
    q.peer < n ∧ (⟨!q.recv, r⟩ : Req) ∈ pushReqs (pull q.peer) (push q.peer) := by
  rw [mem_pushReqs] at hq ⊢
  cases hrec : q.recv with
  | true =>
    rw [hrec] at hq
    have h := hP.pushLt r hr _ hq
    exact ⟨h, (hP.agree q.peer r h hr).2 hq⟩
  | false =>
    rw [hrec] at hq
    have h := hP.pullLt r hr _ hq
    exact ⟨h, (hP.agree r q.peer hr h).1 hq⟩

/-- C53 (pull). Any number of one-by-one pulls completes, for every pattern, every interleaving of the ranks and
whatever messages the MPI library buffers. -/
theorem pull_oneByOne_completes (hP : Pattern n pull push) (eager : Nat → Nat → Nat → Bool) (N : Nat) :
    Completes n (fun r => rounds N (pullOneByOne (pull r) (push r))) eager := by
  apply recvsFirst_complete n N (fun r => pullReqs (pull r) (push r)) (fun r => (pull r).length)
  · exact pull_one hP
  · exact pull_peer hP
  · intro r _ i q hi hrec
    unfold pullReqs at hi
    apply Nat.lt_of_not_le
    intro hle
    rw [List.getElem?_append_right (by simpa using hle), List.getElem?_map] at hi
    cases hx : (push r)[i - ((pull r).map (fun r => (⟨true, r⟩ : Req))).length]? with
    | none => rw [hx] at hi; simp at hi
    | some x => rw [hx] at hi; simp at hi; rw [← hi] at hrec; simp at hrec

/-- C53 (pull, continued). In `N` one-by-one pulls every request is started exactly `N` times, never while it is
active, every start is waited for, and for each message the receive and the send are started equally often. -/
theorem pull_oneByOne_starts (hP : Pattern n pull push) (N r : Nat) (hr : r < n) :
    StartsIdle (rounds N (pullOneByOne (pull r) (push r))) ∧
    AllWaited (rounds N (pullOneByOne (pull r) (push r))) ∧
    (∀ s, (rounds N (pullOneByOne (pull r) (push r))).count (.start ⟨true, s⟩) = if s ∈ pull r then N else 0) ∧
    (∀ s, (rounds N (pullOneByOne (pull r) (push r))).count (.start ⟨false, s⟩) = if s ∈ push r then N else 0) ∧
    (∀ s, s < n → (rounds N (pullOneByOne (pull r) (push r))).count (.start ⟨true, s⟩) =
      (rounds N (pullOneByOne (pull s) (push s))).count (.start ⟨false, r⟩)) := by
  have hcount : ∀ r, r < n → ∀ q, (rounds N (pullOneByOne (pull r) (push r))).count (.start q) =
      if q.peer ∈ (if q.recv then pull r else push r) then N else 0 := by
    intro r hr q
    unfold pullOneByOne
    rw [count_rounds, count_oneByOne, count_pullReqs _ _ _ (hP.pullNodup r hr) (hP.pushNodup r hr)]
    exact mul_ite_one N _
  refine ⟨?_, ?_, ?_, ?_, ?_⟩
  · apply rounds_startsIdle
    · intro q
      unfold pullOneByOne
      rw [count_oneByOne]; exact pull_one hP r hr q
    · exact oneByOne_allWaited _ _
  · exact rounds_allWaited _ _ (oneByOne_allWaited _ _)
  · intro s; rw [hcount r hr]; rfl
  · intro s; rw [hcount r hr]; rfl
  · intro s hs
    rw [hcount r hr, hcount s hs]
    have := hP.agree r s hr hs
    simp [this]

/-- C53 (push). One-by-one pushes complete provided the MPI library buffers every standard mode send.  Without that
they can deadlock (`push_oneByOne_deadlock`), because `nRecvPushReq` counts the receives while the sends come first
in the request list. -/
theorem push_oneByOne_completes_partial (hP : Pattern n pull push) (eager : Nat → Nat → Nat → Bool)
    (heager : ∀ r s k, eager r s k = true) (N : Nat) :
    Completes n (fun r => rounds N (pushOneByOne (pull r) (push r))) eager := by
  apply rounds_complete
  · intro r hr q
    unfold pushOneByOne
    rw [count_oneByOne]; exact push_one hP r hr q
  · intro r hr q hq
    obtain ⟨h1, h2⟩ := push_peer hP r hr q (wait_mem_oneByOne _ _ _ hq)
    exact ⟨h1, (start_mem_oneByOne _ _ _).2 h2⟩
  · intro r j q hr hj
    cases hrec : q.recv with
    | false => exact Or.inl ⟨rfl, fun s k => heager r s k⟩
    | true =>
      refine Or.inr ?_
      intro j' q' hj'
      cases hrec' : q'.recv with
      | false => exact Or.inl ⟨rfl, fun s k => heager _ s k⟩
      | true =>
        obtain ⟨hpn, hpm⟩ := push_peer hP r hr q (wait_mem_oneByOne _ _ _ (List.mem_of_getElem? hj))
        rw [hrec, mem_pushReqs] at hpm
        simp only [Bool.not_true, Bool.false_eq_true, if_false] at hpm
        unfold pushOneByOne at hj'
        obtain ⟨i, hi, hb⟩ := before_wait _ _ _ _ hj'
        obtain ⟨i', hi'⟩ := List.mem_iff_getElem?.1 hpm
        have hi1 : i' < (pull q.peer).length := by
          rw [List.getElem?_eq_some_iff] at hi'; exact hi'.1
        have hi2 : (pull q.peer).length ≤ i := by
          apply Nat.le_of_not_lt
          intro hlt
          unfold pushReqs at hi
          rw [List.getElem?_append_left (by simpa using hlt), List.getElem?_map] at hi
          cases hx : (pull q.peer)[i]? with
          | none => rw [hx] at hi; simp at hi
          | some x => rw [hx] at hi; simp at hi; rw [← hi] at hrec'; simp at hrec'
        refine Or.inr (Or.inl (hb i' ⟨false, r⟩ ?_ (Or.inl (by omega))))
        unfold pushReqs
        rw [List.getElem?_append_left (by simpa using hi1), List.getElem?_map, hi']
        rfl

/-- C53 (push, continued). In `N` one-by-one pushes every request is started exactly `N` times, never while active. -/
theorem push_oneByOne_starts (hP : Pattern n pull push) (N r : Nat) (hr : r < n) :
    StartsIdle (rounds N (pushOneByOne (pull r) (push r))) ∧
    AllWaited (rounds N (pushOneByOne (pull r) (push r))) ∧
    (∀ s, (rounds N (pushOneByOne (pull r) (push r))).count (.start ⟨true, s⟩) = if s ∈ push r then N else 0) ∧
    (∀ s, (rounds N (pushOneByOne (pull r) (push r))).count (.start ⟨false, s⟩) = if s ∈ pull r then N else 0) := by
  have hcount : ∀ q, (rounds N (pushOneByOne (pull r) (push r))).count (.start q) =
      if q.peer ∈ (if q.recv then push r else pull r) then N else 0 := by
    intro q
    unfold pushOneByOne
    rw [count_rounds, count_oneByOne, count_pushReqs _ _ _ (hP.pullNodup r hr) (hP.pushNodup r hr)]
    exact mul_ite_one N _
  refine ⟨?_, ?_, ?_, ?_⟩
  · apply rounds_startsIdle
    · intro q
      unfold pushOneByOne
      rw [count_oneByOne]; exact push_one hP r hr q
    · exact oneByOne_allWaited _ _
  · exact rounds_allWaited _ _ (oneByOne_allWaited _ _)
  · intro s; rw [hcount]; rfl
  · intro s; rw [hcount]; rfl

/-- C53 (default strategy). Starting all the requests and then waiting for all of them completes for pulls and
pushes, in every pattern and interleaving and whatever is buffered. -/
theorem allAtOnce_completes (hP : Pattern n pull push) (eager : Nat → Nat → Nat → Bool) (N : Nat) :
    Completes n (fun r => rounds N (allAtOnce (pullReqs (pull r) (push r)))) eager ∧
    Completes n (fun r => rounds N (allAtOnce (pushReqs (pull r) (push r)))) eager := by
  have lt : ∀ (l : List Req) (i : Nat) (q : Req), l[i]? = some q → i < l.length := by
    intro l i q h
    rw [List.getElem?_eq_some_iff] at h; exact h.1
  constructor
  · simp only [allAtOnce_eq]
    exact recvsFirst_complete n N (fun r => pullReqs (pull r) (push r)) _ eager (pull_one hP) (pull_peer hP)
      (fun r _ i q h _ => lt _ i q h)
  · simp only [allAtOnce_eq]
    exact recvsFirst_complete n N (fun r => pushReqs (pull r) (push r)) _ eager (push_one hP) (push_peer hP)
      (fun r _ i q h _ => lt _ i q h)

end

/-! ### the deadlock of the one-by-one push -/

/-- ranks 1 and 2 pull from rank 0 and from each other -/
def triPull : Nat → List Nat
  | 1 => [0, 2]
  | 2 => [0, 1]
  | _ => []

def triPush : Nat → List Nat
  | 0 => [1, 2]
  | 1 => [2]
  | 2 => [1]
  | _ => []

theorem tri_pattern : Pattern 3 triPull triPush where
  pullLt r hr := by match r, hr with | 0, _ | 1, _ | 2, _ => decide
  pushLt r hr := by match r, hr with | 0, _ | 1, _ | 2, _ => decide
  pullNodup r hr := by match r, hr with | 0, _ | 1, _ | 2, _ => decide
  pushNodup r hr := by match r, hr with | 0, _ | 1, _ | 2, _ => decide
  agree r s hr hs := by
    match r, hr, s, hs with
    | 0, _, 0, _ | 0, _, 1, _ | 0, _, 2, _ | 1, _, 0, _ | 1, _, 1, _ | 1, _, 2, _ | 2, _, 0, _ | 2, _, 1, _
    | 2, _, 2, _ => decide

/-- C53 counterexample: with unbuffered sends the one-by-one push can deadlock: ranks 1 and 2 each wait for their
send to the other before having started the receive from it. -/
theorem push_oneByOne_deadlock :
    ∃ pc, Exec 3 (fun r => rounds 1 (pushOneByOne (triPull r) (triPush r))) (fun _ _ _ => false) 8 pc ∧
      ¬ Finished 3 (fun r => rounds 1 (pushOneByOne (triPull r) (triPush r))) pc ∧
      ¬ ∃ pc', Step 3 (fun r => rounds 1 (pushOneByOne (triPull r) (triPush r))) (fun _ _ _ => false) pc pc' := by
  have st : ∀ (k : Nat) (pc : Nat → Nat) (r : Nat) (ins : Instr) (_ : Exec 3 (fun r => rounds 1 (pushOneByOne (triPull r) (triPush r))) (fun _ _ _ => false) k pc)
      (_ : r < 3) (_ : (rounds 1 (pushOneByOne (triPull r) (triPush r)))[pc r]? = some ins)
      (_ : CanPass (fun r => rounds 1 (pushOneByOne (triPull r) (triPush r))) (fun _ _ _ => false) pc r ins),
      Exec 3 (fun r => rounds 1 (pushOneByOne (triPull r) (triPush r))) (fun _ _ _ => false) (k + 1)
        (fun x => if x = r then pc r + 1 else pc x) :=
    fun k pc r ins he h1 h2 h3 => Exec.step k pc _ he ⟨r, ins, h1, h2, h3, rfl⟩
  have e0 := Exec.init (n := 3) (prog := fun r => rounds 1 (pushOneByOne (triPull r) (triPush r)))
    (eager := fun _ _ _ => false)
  have e1 := st 0 _ 1 (.start ⟨false, 0⟩) e0 (by decide) rfl trivial
  have e2 := st 1 _ 1 (.start ⟨false, 2⟩) e1 (by decide) rfl trivial
  have e3 := st 2 _ 2 (.start ⟨false, 0⟩) e2 (by decide) rfl trivial
  have e4 := st 3 _ 2 (.start ⟨false, 1⟩) e3 (by decide) rfl trivial
  have e5 := st 4 _ 0 (.start ⟨true, 1⟩) e4 (by decide) rfl trivial
  have e6 := st 5 _ 0 (.start ⟨true, 2⟩) e5 (by decide) rfl trivial
  have e7 := st 6 _ 0 (.wait ⟨true, 1⟩) e6 (by decide) rfl (by show _ ≤ _; decide)
  have e8 := st 7 _ 0 (.wait ⟨true, 2⟩) e7 (by decide) rfl (by show _ ≤ _; decide)
  refine ⟨_, e8, ?_, ?_⟩
  · intro h
    have := h 1 (by decide)
    exact absurd this (by decide)
  · rintro ⟨pc', r, ins, hr, hi, hc, _⟩
    match r, hr with
    | 0, _ =>
      have : (rounds 1 (pushOneByOne (triPull 0) (triPush 0)))[4]? = none := rfl
      exact absurd (hi.symm.trans this) (by simp)
    | 1, _ =>
      have : (rounds 1 (pushOneByOne (triPull 1) (triPush 1)))[2]? = some (.wait ⟨false, 2⟩) := rfl
      have := hi.symm.trans this
      injection this with this
      subst this
      rcases hc with h | h
      · cases h
      · exact absurd h (by decide)
    | 2, _ =>
      have : (rounds 1 (pushOneByOne (triPull 2) (triPush 2)))[2]? = some (.wait ⟨false, 1⟩) := rfl
      have := hi.symm.trans this
      injection this with this
      subst this
      rcases hc with h | h
      · cases h
      · exact absurd h (by decide)

/-- the pattern of the counterexample meets the hypotheses of the pull theorems -/
example : Completes 3 (fun r => rounds 5 (pullOneByOne (triPull r) (triPush r))) (fun _ _ _ => false) :=
  pull_oneByOne_completes tri_pattern _ _

end DNDSR.Sched
