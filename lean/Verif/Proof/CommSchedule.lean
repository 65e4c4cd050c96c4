import Verif.Spec.CommSchedule

namespace DNDSR.Sched

/-! ### programs made of rounds -/

theorem rounds_zero (l : List Instr) : rounds 0 l = [] := rfl

theorem rounds_succ (N : Nat) (l : List Instr) : rounds (N + 1) l = l ++ rounds N l := by
  unfold rounds; rw [List.replicate_succ, List.flatten_cons]

theorem length_rounds (N : Nat) (l : List Instr) : (rounds N l).length = N * l.length := by
  induction N with
  | zero => simp [rounds_zero]
  | succ N ih => rw [rounds_succ, List.length_append, ih, Nat.succ_mul]; omega

/-- the position in a program of rounds -/
theorem rounds_pos (l : List Instr) (N p : Nat) (hp : p ≤ (rounds N l).length) :
    ∃ k j, k ≤ N ∧ (rounds N l).take p = rounds k l ++ l.take j ∧
      ((p = (rounds N l).length ∧ k = N ∧ j = 0) ∨
       (k < N ∧ j < l.length ∧ p < (rounds N l).length ∧ (rounds N l)[p]? = l[j]?)) := by
  induction N generalizing p with
  | zero =>
    refine ⟨0, 0, Nat.le_refl _, by simp [rounds_zero], Or.inl ⟨?_, rfl, rfl⟩⟩
    simp [rounds_zero] at hp ⊢; exact hp
  | succ N ih =>
    by_cases h : p < l.length
    · refine ⟨0, p, Nat.zero_le _, ?_, Or.inr ⟨Nat.succ_pos _, h, ?_, ?_⟩⟩
      · rw [rounds_succ, rounds_zero, List.nil_append, List.take_append_of_le_length (Nat.le_of_lt h)]
      · rw [rounds_succ, List.length_append]; omega
      · rw [rounds_succ, List.getElem?_append_left h]
    · have hl : l.length ≤ p := Nat.le_of_not_lt h
      have hp' : p - l.length ≤ (rounds N l).length := by
        rw [rounds_succ, List.length_append] at hp; omega
      obtain ⟨k, j, hk, ht, hc⟩ := ih (p - l.length) hp'
      refine ⟨k + 1, j, Nat.succ_le_succ hk, ?_, ?_⟩
      · rw [rounds_succ, rounds_succ, List.take_append, List.take_of_length_le hl, ht, List.append_assoc]
      · rcases hc with ⟨h1, h2, h3⟩ | ⟨h1, h2, h3, h4⟩
        · refine Or.inl ⟨?_, by omega, h3⟩
          rw [rounds_succ, List.length_append]; omega
        · refine Or.inr ⟨by omega, h2, ?_, ?_⟩
          · rw [rounds_succ, List.length_append]; omega
          · rw [rounds_succ, List.getElem?_append_right hl, h4]

theorem count_rounds (a : Instr) (N : Nat) (l : List Instr) : (rounds N l).count a = N * l.count a := by
  induction N with
  | zero => simp [rounds_zero]
  | succ N ih => rw [rounds_succ, List.count_append, ih, Nat.succ_mul]; omega

/-! ### one round -/

theorem flat_start_count (B : List Req) (q : Req) :
    (B.flatMap (fun q => [Instr.start q, Instr.wait q])).count (.start q) = B.count q := by
  induction B with
  | nil => rfl
  | cons b B ih =>
    rw [List.flatMap_cons, List.count_append, ih, List.count_cons, List.count_cons, List.count_cons]
    by_cases h : b = q
    · subst h; simp; omega
    · have : Instr.start b ≠ .start q := fun e => h (by injection e)
      simp [h]

theorem map_start_count (B : List Req) (q : Req) : (B.map Instr.start).count (.start q) = B.count q := by
  induction B with
  | nil => rfl
  | cons b B ih =>
    rw [List.map_cons, List.count_cons, ih, List.count_cons]
    by_cases h : b = q
    · subst h; simp
    · have : Instr.start b ≠ .start q := fun e => h (by injection e)
      simp [h]

theorem map_wait_count (B : List Req) (q : Req) : (B.map Instr.wait).count (.start q) = 0 := by
  induction B with
  | nil => rfl
  | cons b B ih => rw [List.map_cons, List.count_cons, ih]; simp

theorem count_oneByOne (reqs : List Req) (m : Nat) (q : Req) :
    (oneByOne reqs m).count (.start q) = reqs.count q := by
  unfold oneByOne
  rw [List.count_append, List.count_append, flat_start_count, map_start_count, map_wait_count, Nat.add_zero,
    ← List.count_append, List.take_append_drop]

/-- what has been started when the program waits inside the middle part -/
theorem flat_before_wait (B : List Req) (j : Nat) (q : Req)
    (h : (B.flatMap (fun q => [Instr.start q, Instr.wait q]))[j]? = some (.wait q)) :
    ∃ i : Nat, B[i]? = some q ∧ ∀ (i' : Nat) (q' : Req), i' ≤ i → B[i']? = some q' →
      Instr.start q' ∈ (B.flatMap (fun q => [Instr.start q, Instr.wait q])).take j := by
  induction B generalizing j with
  | nil => simp at h
  | cons b B ih =>
    rw [List.flatMap_cons] at h ⊢
    match j with
    | 0 => simp at h
    | 1 =>
      simp at h
      refine ⟨0, by simp [h], ?_⟩
      intro i' q' hi hq
      have : i' = 0 := by omega
      subst this
      simp at hq
      simp [hq]
    | j + 2 =>
      simp only [List.cons_append, List.nil_append, List.getElem?_cons_succ] at h
      obtain ⟨i, h1, h2⟩ := ih j h
      refine ⟨i + 1, by simpa using h1, ?_⟩
      intro i' q' hi hq
      match i' with
      | 0 => simp at hq; simp [hq]
      | i' + 1 =>
        have := h2 i' q' (by omega) (by simpa using hq)
        simp only [List.cons_append, List.nil_append, List.take_succ_cons]
        exact List.mem_cons_of_mem _ (List.mem_cons_of_mem _ this)

/-- when the program waits for request number `i`: the requests up to `i` and the first `m` have been started,
and all of them if `i < m` -/
theorem before_wait (reqs : List Req) (m j : Nat) (q : Req) (h : (oneByOne reqs m)[j]? = some (.wait q)) :
    ∃ i : Nat, reqs[i]? = some q ∧ ∀ (i' : Nat) (q' : Req), reqs[i']? = some q' → (i' ≤ i ∨ i' < m ∨ i < m) →
      Instr.start q' ∈ (oneByOne reqs m).take j := by
  unfold oneByOne at h ⊢
  generalize hA : (reqs.take m).map Instr.start = A at h ⊢
  generalize hF : (reqs.drop m).flatMap (fun q => [Instr.start q, Instr.wait q]) = F at h ⊢
  generalize hW : (reqs.take m).map Instr.wait = W at h ⊢
  have memA : ∀ (i' : Nat) (q' : Req), reqs[i']? = some q' → i' < m → Instr.start q' ∈ A := by
    intro i' q' h1 h2
    rw [← hA]
    apply List.mem_map_of_mem
    apply List.mem_of_getElem? (i := i')
    rw [List.getElem?_take, if_pos h2]; exact h1
  have notA : j < A.length → False := by
    intro hj
    rw [List.append_assoc, List.getElem?_append_left hj, ← hA, List.getElem?_map] at h
    cases hx : (reqs.take m)[j]? with
    | none => rw [hx] at h; simp at h
    | some x => rw [hx] at h; simp at h
  have hjA : A.length ≤ j := Nat.le_of_not_lt notA
  rw [List.append_assoc, List.getElem?_append_right hjA] at h
  by_cases hjF : j - A.length < F.length
  · rw [List.getElem?_append_left hjF] at h
    rw [← hF] at h
    obtain ⟨i, h1, h2⟩ := flat_before_wait _ _ _ h
    rw [List.getElem?_drop] at h1
    refine ⟨m + i, h1, ?_⟩
    intro i' q' hq hc
    have key : (A ++ F ++ W).take j = A ++ F.take (j - A.length) := by
      rw [List.append_assoc, List.take_append, List.take_of_length_le hjA,
        List.take_append_of_le_length (Nat.le_of_lt hjF)]
    rw [key]
    by_cases him : i' < m
    · exact List.mem_append_left _ (memA i' q' hq him)
    · have hi : i' ≤ m + i := by omega
      apply List.mem_append_right
      rw [← hF]
      apply h2 (i' - m) q' (by omega)
      rw [List.getElem?_drop]
      have : m + (i' - m) = i' := by omega
      rw [this]; exact hq
  · have hjF' : F.length ≤ j - A.length := Nat.le_of_not_lt hjF
    rw [List.getElem?_append_right hjF', ← hW, List.getElem?_map] at h
    have key : (A ++ F ++ W).take j = A ++ F ++ W.take (j - (A ++ F).length) := by
      rw [List.take_append, List.take_of_length_le]
      rw [List.length_append]; omega
    cases hx : (reqs.take m)[j - A.length - F.length]? with
    | none => rw [hx] at h; simp at h
    | some x =>
      rw [hx] at h
      simp at h
      subst h
      rw [List.getElem?_take] at hx
      split at hx
      · rename_i hlt
        refine ⟨j - A.length - F.length, hx, ?_⟩
        intro i' q' hq _
        rw [key]
        apply List.mem_append_left
        by_cases him : i' < m
        · exact List.mem_append_left _ (memA i' q' hq him)
        · apply List.mem_append_right
          rw [← hF]
          apply List.mem_flatMap.2
          refine ⟨q', ?_, by simp⟩
          apply List.mem_of_getElem? (i := i' - m)
          rw [List.getElem?_drop]
          have : m + (i' - m) = i' := by omega
          rw [this]; exact hq
      · cases hx

/-! ### executions -/

section
variable {n : Nat} {prog : Nat → List Instr} {eager : Nat → Nat → Nat → Bool}

theorem sum_update (f : Nat → Nat) (r n : Nat) (hr : r < n) :
    ((List.range n).map (fun x => if x = r then f r + 1 else f x)).sum = ((List.range n).map f).sum + 1 := by
  induction n with
  | zero => omega
  | succ n ih =>
    rw [List.range_succ, List.map_append, List.sum_append_nat, List.map_append, List.sum_append_nat]
    by_cases h : r = n
    · subst h
      have : (List.range r).map (fun x => if x = r then f r + 1 else f x) = (List.range r).map f := by
        apply List.map_congr_left
        intro x hx
        rw [List.mem_range] at hx
        rw [if_neg (by omega)]
      rw [this]; simp; omega
    · rw [ih (by omega)]
      have : n ≠ r := fun e => h e.symm
      simp [this]; omega

theorem sum_le (f g : Nat → Nat) (n : Nat) (h : ∀ r, r < n → f r ≤ g r) :
    ((List.range n).map f).sum ≤ ((List.range n).map g).sum := by
  induction n with
  | zero => simp
  | succ n ih =>
    rw [List.range_succ, List.map_append, List.sum_append_nat, List.map_append, List.sum_append_nat]
    have h1 := ih (fun r hr => h r (by omega))
    have h2 := h n (by omega)
    simp; omega

theorem exec_inv {k : Nat} {pc : Nat → Nat} (h : Exec n prog eager k pc) :
    k = ((List.range n).map pc).sum ∧ ∀ r, r < n → pc r ≤ (prog r).length := by
  induction h with
  | init =>
    refine ⟨?_, fun _ _ => Nat.zero_le _⟩
    induction n with
    | zero => rfl
    | succ n ih => rw [List.range_succ, List.map_append, List.sum_append_nat, ← ih]; rfl
  | step k pc pc' _ hs ih =>
    obtain ⟨r, ins, hr, hi, _, rfl⟩ := hs
    refine ⟨?_, ?_⟩
    · rw [sum_update pc r n hr, ← ih.1]
    · intro x hx
      have hlt : pc r < (prog r).length := by
        rw [List.getElem?_eq_some_iff] at hi
        exact hi.1
      show (if x = r then pc r + 1 else pc x) ≤ _
      split
      · rename_i e; subst e; omega
      · exact ih.2 x hx

theorem completes_of_progress
    (h : ∀ pc : Nat → Nat, (∀ r, r < n → pc r ≤ (prog r).length) → ¬ Finished n prog pc →
      ∃ r ins, r < n ∧ (prog r)[pc r]? = some ins ∧ CanPass prog eager pc r ins) :
    Completes n prog eager := by
  intro k pc he
  have hi := exec_inv he
  refine ⟨?_, ?_⟩
  · rw [hi.1]; exact sum_le _ _ _ hi.2
  · by_cases hf : Finished n prog pc
    · exact Or.inl hf
    · obtain ⟨r, ins, h1, h2, h3⟩ := h pc hi.2 hf
      exact Or.inr ⟨_, r, ins, h1, h2, h3, rfl⟩

end

/-- a least element -/
theorem exists_min (P : Nat → Prop) (f : Nat → Nat) (h : ∃ r, P r) : ∃ r, P r ∧ ∀ s, P s → f r ≤ f s := by
  obtain ⟨r0, h0⟩ := h
  suffices H : ∀ v r, P r → f r ≤ v → ∃ r, P r ∧ ∀ s, P s → f r ≤ f s from H (f r0) r0 h0 (Nat.le_refl _)
  intro v
  induction v with
  | zero => exact fun r hr hv => ⟨r, hr, fun s _ => by omega⟩
  | succ v ih =>
    intro r hr hv
    by_cases hc : ∃ s, P s ∧ f s < f r
    · obtain ⟨s, hs, hlt⟩ := hc
      exact ih s hs (by omega)
    · exact ⟨r, hr, fun s hs => Nat.le_of_not_lt (fun hlt => hc ⟨s, hs, hlt⟩)⟩

theorem one_le_count {a : Instr} {l : List Instr} (h : a ∈ l) : 1 ≤ l.count a := List.one_le_count_iff.2 h

/-- Programs of `N` rounds complete if no rank can be stuck in the earliest round: whenever rank `r` waits for `q`
and every rank that is in the same round waits too, the counterpart has been started. -/
theorem rounds_complete (n N : Nat) (round : Nat → List Instr) (eager : Nat → Nat → Nat → Bool)
    (hone : ∀ r, r < n → ∀ q, (round r).count (.start q) ≤ 1)
    (hpeer : ∀ r, r < n → ∀ q, .wait q ∈ round r → q.peer < n ∧ Instr.start ⟨!q.recv, r⟩ ∈ round q.peer)
    (hlocal : ∀ (r j : Nat) (q : Req), r < n → (round r)[j]? = some (.wait q) →
      (q.recv = false ∧ ∀ s k, eager r s k = true) ∨
      ∀ (j' : Nat) (q' : Req), (round q.peer)[j']? = some (.wait q') →
        (q'.recv = false ∧ ∀ s k, eager q.peer s k = true) ∨
        Instr.start ⟨!q.recv, r⟩ ∈ (round q.peer).take j' ∨
        (q'.recv = false ∧ q'.peer < n ∧ ∀ (j2 : Nat) (q2 : Req), (round q'.peer)[j2]? = some (.wait q2) →
          Instr.start ⟨!q'.recv, q.peer⟩ ∈ (round q'.peer).take j2)) :
    Completes n (fun r => rounds N (round r)) eager := by
  apply completes_of_progress
  intro pc hpc hnf
  apply Classical.byContradiction
  intro hstuck
  have hstuck' : ∀ r ins, r < n → (rounds N (round r))[pc r]? = some ins →
      ¬ CanPass (fun r => rounds N (round r)) eager pc r ins :=
    fun r ins h1 h2 h3 => hstuck ⟨r, ins, h1, h2, h3⟩
  have hpos : ∀ r, ∃ k j, r < n → k ≤ N ∧ (rounds N (round r)).take (pc r) = rounds k (round r) ++ (round r).take j ∧
      ((pc r = (rounds N (round r)).length ∧ k = N ∧ j = 0) ∨
       (k < N ∧ j < (round r).length ∧ pc r < (rounds N (round r)).length ∧
        (rounds N (round r))[pc r]? = (round r)[j]?)) := by
    intro r
    by_cases hr : r < n
    · obtain ⟨k, j, h⟩ := rounds_pos (round r) N (pc r) (hpc r hr)
      exact ⟨k, j, fun _ => h⟩
    · exact ⟨0, 0, fun h => absurd h hr⟩
  let K : Nat → Nat := fun r => (hpos r).choose
  let J : Nat → Nat := fun r => (hpos r).choose_spec.choose
  have hKJ : ∀ r, r < n → K r ≤ N ∧
      (rounds N (round r)).take (pc r) = rounds (K r) (round r) ++ (round r).take (J r) ∧
      ((pc r = (rounds N (round r)).length ∧ K r = N ∧ J r = 0) ∨
       (K r < N ∧ J r < (round r).length ∧ pc r < (rounds N (round r)).length ∧
        (rounds N (round r))[pc r]? = (round r)[J r]?)) :=
    fun r => (hpos r).choose_spec.choose_spec
  clear_value K J
  have hst : ∀ r, r < n → ∀ q, started (fun r => rounds N (round r)) pc r q =
      K r * (round r).count (.start q) + ((round r).take (J r)).count (.start q) := by
    intro r hr q
    unfold started
    show ((rounds N (round r)).take (pc r)).count _ = _
    rw [(hKJ r hr).2.1, List.count_append, count_rounds]
  -- an unfinished rank waits
  have hwaits : ∀ r, r < n → K r < N → ∃ q, (round r)[J r]? = some (.wait q) ∧
      (rounds N (round r))[pc r]? = some (.wait q) := by
    intro r hr hk
    rcases (hKJ r hr).2.2 with ⟨_, h, _⟩ | ⟨_, hj, _, he⟩
    · omega
    · have hs := List.getElem?_eq_getElem hj
      match hm : (round r)[J r] with
      | .start q =>
        exfalso
        rw [hs, hm] at he
        exact hstuck' r _ hr he trivial
      | .wait q =>
        rw [hm] at hs
        exact ⟨q, hs, by rw [he, hs]⟩
  -- the earliest round
  have hex : ∃ r, r < n ∧ K r < N := by
    apply Classical.byContradiction
    intro hno
    apply hnf
    intro r hr
    rcases (hKJ r hr).2.2 with ⟨h, _, _⟩ | ⟨h, _⟩
    · exact h
    · exact absurd ⟨r, hr, h⟩ hno
  obtain ⟨r, ⟨hr, hk⟩, hmin⟩ := exists_min (fun r => r < n ∧ K r < N) K hex
  have hK : ∀ s, s < n → K r ≤ K s := by
    intro s hs
    by_cases h : K s < N
    · exact hmin s ⟨hs, h⟩
    · omega
  -- a rank of the earliest round whose counterpart is started in this round can pass
  have hpass : ∀ r', r' < n → K r' = K r → ∀ q, (round r')[J r']? = some (.wait q) →
      (rounds N (round r'))[pc r']? = some (.wait q) →
      (K q.peer = K r → Instr.start ⟨!q.recv, r'⟩ ∈ (round q.peer).take (J q.peer)) → False := by
    intro r' hr' hk' q hq hq' hc
    have hmem : Instr.wait q ∈ round r' := List.mem_of_getElem? hq
    obtain ⟨hpn, hpm⟩ := hpeer r' hr' q hmem
    apply hstuck' r' _ hr' hq'
    have h1 : started (fun r => rounds N (round r)) pc r' q ≤ K r + 1 := by
      rw [hst r' hr', hk']
      have e1 := hone r' hr' q
      have e2 := List.Sublist.count_le (Instr.start q) (List.take_sublist (J r') (round r'))
      have e3 : K r * (round r').count (.start q) ≤ K r * 1 := Nat.mul_le_mul_left _ e1
      omega
    have h2 : K r + 1 ≤ started (fun r => rounds N (round r)) pc q.peer ⟨!q.recv, r'⟩ := by
      rw [hst q.peer hpn]
      have e1 := one_le_count hpm
      have e3 : K q.peer * 1 ≤ K q.peer * (round q.peer).count (.start ⟨!q.recv, r'⟩) := Nat.mul_le_mul_left _ e1
      have e4 := hK q.peer hpn
      by_cases he : K q.peer = K r
      · have := one_le_count (hc he)
        omega
      · omega
    unfold CanPass
    simp only
    cases hrec : q.recv with
    | true =>
      rw [hrec] at h2
      simp only [if_true]
      exact Nat.le_trans h1 h2
    | false =>
      rw [hrec] at h2
      simp only [Bool.false_eq_true, if_false]
      exact Or.inr (Nat.le_trans h1 h2)
  have heager : ∀ r', r' < n → ∀ q, (rounds N (round r'))[pc r']? = some (.wait q) → q.recv = false →
      (∀ s k, eager r' s k = true) → False := by
    intro r' hr' q hq hrec hall
    apply hstuck' r' _ hr' hq
    unfold CanPass
    simp only [hrec, Bool.false_eq_true, if_false]
    exact Or.inl (hall _ _)
  obtain ⟨q, hq, hq'⟩ := hwaits r hr hk
  apply hpass r hr rfl q hq hq'
  intro hkp
  obtain ⟨hpn, hpm⟩ := hpeer r hr q (List.mem_of_getElem? hq)
  obtain ⟨q1, h1, h1'⟩ := hwaits q.peer hpn (by omega)
  rcases hlocal r (J r) q hr hq with ⟨ha, hb⟩ | hl
  · exact absurd (heager r hr q hq' ha hb) id
  · rcases hl (J q.peer) q1 h1 with ⟨ha, hb⟩ | h | ⟨ha, hb, hc⟩
    · exact absurd (heager q.peer hpn q1 h1' ha hb) id
    · exact h
    · exfalso
      apply hpass q.peer hpn hkp q1 h1 h1'
      intro hk2
      obtain ⟨q2, h2, _⟩ := hwaits q1.peer hb (by omega)
      exact hc (J q1.peer) q2 h2

/-! ### starts and waits alternate -/

theorem flat_allWaited (B : List Req) : AllWaited (B.flatMap (fun q => [Instr.start q, Instr.wait q])) := by
  induction B with
  | nil => intro i q h; simp at h
  | cons b B ih =>
    intro i q h
    rw [List.flatMap_cons] at h ⊢
    match i with
    | 0 => simp at h; exact ⟨1, by omega, by simp [h]⟩
    | 1 => simp at h
    | i + 2 =>
      simp only [List.cons_append, List.nil_append, List.getElem?_cons_succ] at h
      obtain ⟨k, h1, h2⟩ := ih i q h
      refine ⟨k + 2, by omega, ?_⟩
      simp only [List.cons_append, List.nil_append, List.getElem?_cons_succ]
      exact h2

theorem oneByOne_allWaited (reqs : List Req) (m : Nat) : AllWaited (oneByOne reqs m) := by
  intro i q h
  unfold oneByOne at h ⊢
  have hfl := flat_allWaited (reqs.drop m)
  generalize hA : (reqs.take m).map Instr.start = A at h ⊢
  generalize (reqs.drop m).flatMap (fun q => [Instr.start q, Instr.wait q]) = F at h hfl ⊢
  generalize hW : (reqs.take m).map Instr.wait = W at h ⊢
  have hAW : A.length = W.length := by rw [← hA, ← hW]; simp
  by_cases h1 : i < A.length
  · rw [List.append_assoc, List.getElem?_append_left h1, ← hA, List.getElem?_map] at h
    refine ⟨A.length + F.length + i, by omega, ?_⟩
    rw [List.getElem?_append_right (by rw [List.length_append]; omega), List.length_append, ← hW, List.getElem?_map]
    have : A.length + F.length + i - (A.length + F.length) = i := by omega
    rw [this]
    cases hx : (reqs.take m)[i]? with
    | none => rw [hx] at h; simp at h
    | some x => rw [hx] at h; simp at h; simp [h]
  · have h1' : A.length ≤ i := Nat.le_of_not_lt h1
    rw [List.append_assoc, List.getElem?_append_right h1'] at h
    by_cases h2 : i - A.length < F.length
    · rw [List.getElem?_append_left h2] at h
      obtain ⟨k, k1, k2⟩ := hfl _ _ h
      have hk : k < F.length := by
        rw [List.getElem?_eq_some_iff] at k2; exact k2.1
      refine ⟨A.length + k, by omega, ?_⟩
      rw [List.append_assoc, List.getElem?_append_right (by omega), List.getElem?_append_left (by omega)]
      have : A.length + k - A.length = k := by omega
      rw [this]; exact k2
    · rw [List.getElem?_append_right (Nat.le_of_not_lt h2), ← hW, List.getElem?_map] at h
      cases hx : (reqs.take m)[i - A.length - F.length]? with
      | none => rw [hx] at h; simp at h
      | some x => rw [hx] at h; simp at h

theorem count_two {a : Instr} {l : List Instr} {i j : Nat} (hij : i < j) (hi : l[i]? = some a) (hj : l[j]? = some a) :
    2 ≤ l.count a := by
  induction l generalizing i j with
  | nil => simp at hi
  | cons b l ih =>
    match j with
    | 0 => omega
    | j + 1 =>
      rw [List.getElem?_cons_succ] at hj
      match i with
      | 0 =>
        simp at hi
        subst hi
        rw [List.count_cons_self]
        have := one_le_count (List.mem_of_getElem? hj)
        omega
      | i + 1 =>
        rw [List.getElem?_cons_succ] at hi
        have := ih (by omega : i < j) hi hj
        rw [List.count_cons]; omega

theorem rounds_startsIdle (l : List Instr) (N : Nat) (hone : ∀ q, l.count (.start q) ≤ 1) (hw : AllWaited l) :
    StartsIdle (rounds N l) := by
  induction N with
  | zero => intro i j q _ h; simp [rounds_zero] at h
  | succ N ih =>
    intro i j q hij hi hj
    rw [rounds_succ] at hi hj ⊢
    by_cases h1 : i < l.length
    · rw [List.getElem?_append_left h1] at hi
      by_cases h2 : j < l.length
      · rw [List.getElem?_append_left h2] at hj
        have := count_two hij hi hj
        have := hone q
        omega
      · obtain ⟨k, k1, k2⟩ := hw i q hi
        have hk : k < l.length := by
          rw [List.getElem?_eq_some_iff] at k2; exact k2.1
        exact ⟨k, k1, by omega, by rw [List.getElem?_append_left hk]; exact k2⟩
    · have h1' : l.length ≤ i := Nat.le_of_not_lt h1
      rw [List.getElem?_append_right h1'] at hi
      rw [List.getElem?_append_right (by omega)] at hj
      obtain ⟨k, k1, k2, k3⟩ := ih (i - l.length) (j - l.length) q (by omega) hi hj
      refine ⟨l.length + k, by omega, by omega, ?_⟩
      rw [List.getElem?_append_right (by omega)]
      have : l.length + k - l.length = k := by omega
      rw [this]; exact k3

theorem rounds_allWaited (l : List Instr) (N : Nat) (hw : AllWaited l) : AllWaited (rounds N l) := by
  induction N with
  | zero => intro i q h; simp [rounds_zero] at h
  | succ N ih =>
    intro i q hi
    rw [rounds_succ] at hi ⊢
    by_cases h1 : i < l.length
    · rw [List.getElem?_append_left h1] at hi
      obtain ⟨k, k1, k2⟩ := hw i q hi
      have hk : k < l.length := by
        rw [List.getElem?_eq_some_iff] at k2; exact k2.1
      exact ⟨k, k1, by rw [List.getElem?_append_left hk]; exact k2⟩
    · have h1' : l.length ≤ i := Nat.le_of_not_lt h1
      rw [List.getElem?_append_right h1'] at hi
      obtain ⟨k, k1, k2⟩ := ih (i - l.length) q hi
      refine ⟨l.length + k, by omega, ?_⟩
      rw [List.getElem?_append_right (by omega)]
      have : l.length + k - l.length = k := by omega
      rw [this]; exact k2

/-! ### requests of a pattern -/

theorem count_map_inj (b : Bool) (l : List Nat) (q : Req) (hn : l.Nodup) :
    (l.map (fun r => (⟨b, r⟩ : Req))).count q = if q.recv = b ∧ q.peer ∈ l then 1 else 0 := by
  obtain ⟨c, p⟩ := q
  by_cases h : c = b ∧ p ∈ l
  · rw [if_pos h]
    obtain ⟨rfl, h2⟩ := h
    have hn' : (l.map (fun r => (⟨c, r⟩ : Req))).Nodup := by
      apply List.Pairwise.map (R := (· ≠ ·)) (S := (· ≠ ·)) _ _ hn
      intro a b hab e
      injection e with _ e
      exact hab e
    have h1 := (List.nodup_iff_count.1 hn') ⟨c, p⟩
    have h3 := List.one_le_count_iff.2 (List.mem_map_of_mem (f := fun r => (⟨c, r⟩ : Req)) h2)
    omega
  · rw [if_neg h, List.count_eq_zero]
    intro hm
    obtain ⟨r, h1, h2⟩ := List.mem_map.1 hm
    injection h2 with h2 h3
    subst h2; subst h3
    exact h ⟨rfl, h1⟩

theorem count_pullReqs (pull push : List Nat) (q : Req) (h1 : pull.Nodup) (h2 : push.Nodup) :
    (pullReqs pull push).count q = if q.peer ∈ (if q.recv then pull else push) then 1 else 0 := by
  unfold pullReqs
  rw [List.count_append, count_map_inj _ _ _ h1, count_map_inj _ _ _ h2]
  cases q.recv <;> simp

theorem count_pushReqs (pull push : List Nat) (q : Req) (h1 : pull.Nodup) (h2 : push.Nodup) :
    (pushReqs pull push).count q = if q.peer ∈ (if q.recv then push else pull) then 1 else 0 := by
  unfold pushReqs
  rw [List.count_append, count_map_inj _ _ _ h1, count_map_inj _ _ _ h2]
  cases q.recv <;> simp

theorem mem_pullReqs (pull push : List Nat) (q : Req) :
    q ∈ pullReqs pull push ↔ q.peer ∈ (if q.recv then pull else push) := by
  obtain ⟨c, p⟩ := q
  unfold pullReqs
  cases c <;> simp

theorem mem_pushReqs (pull push : List Nat) (q : Req) :
    q ∈ pushReqs pull push ↔ q.peer ∈ (if q.recv then push else pull) := by
  obtain ⟨c, p⟩ := q
  unfold pushReqs
  cases c <;> simp

theorem start_mem_oneByOne (reqs : List Req) (m : Nat) (q : Req) : .start q ∈ oneByOne reqs m ↔ q ∈ reqs := by
  rw [← List.one_le_count_iff, count_oneByOne, List.one_le_count_iff]

theorem wait_mem_oneByOne (reqs : List Req) (m : Nat) (q : Req) (h : .wait q ∈ oneByOne reqs m) : q ∈ reqs := by
  obtain ⟨j, hj⟩ := List.mem_iff_getElem?.1 h
  obtain ⟨i, hi, _⟩ := before_wait reqs m j q hj
  exact List.mem_of_getElem? hi

theorem allAtOnce_eq (reqs : List Req) : allAtOnce reqs = oneByOne reqs reqs.length := by
  unfold allAtOnce oneByOne
  simp

end DNDSR.Sched
