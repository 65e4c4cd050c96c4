import Verif.Spec.ObjectPool

/-! # Object pool: C14 -/

namespace DNDSR.Pool

/-! ### counting -/

theorem sum_set {β : Type} (f : β → Nat) : ∀ (l : List β) (i : Nat) (a b : β), l[i]? = some a →
    ((l.set i b).map f).sum + f a = (l.map f).sum + f b := by
  intro l
  induction l with
  | nil => intro i a b h; simp at h
  | cons x xs ih =>
    intro i a b h
    cases i with
    | zero => simp at h; subst h; simp; omega
    | succ i => simp at h; have := ih i a b h; simp only [List.set_cons_succ, List.map_cons, List.sum_cons]; omega

theorem sum_ge {β : Type} (f : β → Nat) : ∀ (l : List β) (i : Nat) (a : β), l[i]? = some a →
    f a ≤ (l.map f).sum := by
  intro l i a h
  have h2 := List.mem_of_getElem? h
  clear h
  induction l with
  | nil => simp at h2
  | cons x xs ih =>
    rcases List.mem_cons.1 h2 with rfl | h2
    · simp
    · have := ih h2; simp; omega

theorem sum_ge2 {β : Type} (f : β → Nat) : ∀ (l : List β) (i j : Nat) (a b : β), l[i]? = some a →
    l[j]? = some b → i ≠ j → f a + f b ≤ (l.map f).sum := by
  intro l
  induction l with
  | nil => intro i j a b h; simp at h
  | cons x xs ih =>
    intro i j a b h1 h2 hij
    match i, j with
    | 0, 0 => exact absurd rfl hij
    | 0, j + 1 =>
      simp at h1 h2; subst h1
      have := sum_ge f xs j b h2
      simp; omega
    | i + 1, 0 =>
      simp at h1 h2; subst h2
      have := sum_ge f xs i a h1
      simp; omega
    | i + 1, j + 1 =>
      simp at h1 h2
      have := ih i j a b h1 h2 (by omega)
      simp; omega

def one (o : Nat) (x : Handle) : Nat := if x.ptr = some o then 1 else 0

/-- occurrences of object `o` anywhere -/
def cnt (s : St) (o : Nat) : Nat :=
  (s.pools.map (fun q => q.objs.count o)).sum + (s.handles.map (one o)).sum

theorem livePool_ok {s : St} {p : Nat} {q : PoolSt} : livePool s p = .ok q ↔ s.pools[p]? = some q ∧ q.alive = true := by
  unfold livePool
  cases h : s.pools[p]? with
  | none => simp
  | some x =>
    by_cases ha : x.alive
    · simp only [ha, if_true, Res.ok.injEq, Option.some.injEq]
      constructor
      · rintro rfl; exact ⟨rfl, ha⟩
      · rintro ⟨rfl, _⟩; rfl
    · simp only [ha, Option.some.injEq]
      constructor
      · intro h; simp at h
      · rintro ⟨rfl, h⟩; exact absurd h ha

theorem liveHandle_ok {s : St} {h : Nat} {x : Handle} :
    liveHandle s h = .ok x ↔ s.handles[h]? = some x ∧ x.dead = false := by
  unfold liveHandle
  cases e : s.handles[h]? with
  | none => simp
  | some y =>
    by_cases ha : y.dead
    · simp only [ha, if_true, Option.some.injEq]
      constructor
      · intro h; simp at h
      · rintro ⟨rfl, h⟩; simp [ha] at h
    · simp only [ha, Option.some.injEq]
      constructor
      · intro h; simp at h; subst h; exact ⟨rfl, by simpa using ha⟩
      · rintro ⟨rfl, _⟩; rfl

theorem take_some {s s' : St} {p : Nat} {q : PoolSt} (h : take s p q = some s') :
    ∃ o rest, q.objs = rest ++ [o] ∧
      s' = ⟨s.next, s.pools.set p { q with objs := rest }, s.handles ++ [⟨some o, some p, false⟩]⟩ := by
  unfold take at h
  cases e : q.objs.getLast? with
  | none => simp [e] at h
  | some o =>
    simp only [e, Option.some.injEq] at h
    have hne : q.objs ≠ [] := by intro h0; simp [h0] at e
    refine ⟨o, q.objs.dropLast, ?_, h.symm⟩
    have h1 := List.dropLast_concat_getLast hne
    have h2 : q.objs.getLast hne = o := by
      rw [List.getLast?_eq_some_getLast hne] at e; exact Option.some.inj e
    rw [← h2]; exact h1.symm

theorem take_none {s : St} {p : Nat} {q : PoolSt} (h : take s p q = none) : q.objs = [] := by
  unfold take at h
  cases e : q.objs.getLast? with
  | none => exact List.getLast?_eq_none_iff.1 e
  | some o => simp [e] at h

def Good (s : St) : Prop := ∀ o, cnt s o ≤ 1 ∧ (s.next ≤ o → cnt s o = 0)

theorem count_range' (o n k : Nat) : (List.range' n k).count o = if n ≤ o ∧ o < n + k then 1 else 0 := by
  induction k generalizing n with
  | zero => simp; try omega
  | succ k ih =>
    rw [List.range'_succ, List.count_cons, ih]
    by_cases h : n = o
    · subst h; simp; omega
    · simp only [beq_iff_eq, h, if_false]
      by_cases h1 : n + 1 ≤ o ∧ o < n + 1 + k
      · rw [if_pos h1, if_pos (by omega)]
      · rw [if_neg h1, if_neg (by omega)]

theorem cnt_step {s s' : St} {op : Op} (hs : step s op = .ok s') (o : Nat) :
    s.next ≤ s'.next ∧
    cnt s' o ≤ cnt s o + (if s.next ≤ o ∧ o < s'.next then 1 else 0) := by
  cases op with
  | newPool =>
    simp only [step, Res.ok.injEq] at hs; subst hs
    simp [cnt]
  | destroyPool p =>
    simp only [step, Res.bind_ok_iff, livePool_ok, Res.ok.injEq] at hs
    obtain ⟨q, ⟨h1, _⟩, rfl⟩ := hs
    have := sum_set (fun q : PoolSt => q.objs.count o) s.pools p q ⟨[], false⟩ h1
    simp only [List.count_nil] at this
    refine ⟨Nat.le_refl _, ?_⟩
    simp only [cnt]; omega
  | resize p n =>
    simp only [step, Res.bind_ok_iff, livePool_ok, Res.ok.injEq] at hs
    obtain ⟨q, ⟨h1, _⟩, rfl⟩ := hs
    have := sum_set (fun q : PoolSt => q.objs.count o) s.pools p q { q with objs := List.range' s.next n } h1
    simp only [count_range'] at this
    refine ⟨Nat.le_add_right _ _, ?_⟩
    simp only [cnt]; omega
  | get p =>
    simp only [step, Res.bind_ok_iff, livePool_ok] at hs
    obtain ⟨q, ⟨h1, _⟩, h2⟩ := hs
    cases e : take s p q with
    | some s2 =>
      simp only [e, Res.ok.injEq] at h2; subst h2
      obtain ⟨ob, rest, h3, rfl⟩ := take_some e
      have := sum_set (fun q : PoolSt => q.objs.count o) s.pools p q { q with objs := rest } h1
      refine ⟨Nat.le_refl _, ?_⟩
      simp only [h3, List.count_append, List.count_singleton, beq_iff_eq] at this
      simp only [cnt, List.map_append, List.sum_append_nat, List.map_cons, List.map_nil, List.sum_cons, List.sum_nil, one,
        Option.some.injEq]
      omega
    | none =>
      simp only [e, Res.ok.injEq] at h2; subst h2
      refine ⟨Nat.le_refl _, ?_⟩
      simp [cnt, one]
  | getAlloc p =>
    simp only [step, Res.bind_ok_iff, livePool_ok] at hs
    obtain ⟨q, ⟨h1, _⟩, h2⟩ := hs
    cases e : take s p q with
    | some s2 =>
      simp only [e, Res.ok.injEq] at h2; subst h2
      obtain ⟨ob, rest, h3, rfl⟩ := take_some e
      have := sum_set (fun q : PoolSt => q.objs.count o) s.pools p q { q with objs := rest } h1
      refine ⟨Nat.le_refl _, ?_⟩
      simp only [h3, List.count_append, List.count_singleton, beq_iff_eq] at this
      simp only [cnt, List.map_append, List.sum_append_nat, List.map_cons, List.map_nil, List.sum_cons, List.sum_nil, one,
        Option.some.injEq]
      omega
    | none =>
      simp only [e, Res.ok.injEq] at h2; subst h2
      refine ⟨Nat.le_add_right _ _, ?_⟩
      simp only [cnt, List.map_append, List.sum_append_nat, List.map_cons, List.map_nil, List.sum_cons, List.sum_nil, one,
        Option.some.injEq]
      by_cases h : s.next = o
      · rw [if_pos h, if_pos (by omega)]; omega
      · rw [if_neg h]; omega
  | moveCtor h =>
    simp only [step, Res.bind_ok_iff, liveHandle_ok, Res.ok.injEq] at hs
    obtain ⟨x, ⟨h1, _⟩, rfl⟩ := hs
    have := sum_set (one o) s.handles h x ⟨none, none, false⟩ h1
    have h0 : one o ⟨none, none, false⟩ = 0 := by simp [one]
    refine ⟨Nat.le_refl _, ?_⟩
    simp only [cnt, List.map_append, List.sum_append_nat, List.map_cons, List.map_nil, List.sum_cons, List.sum_nil]
    omega
  | moveAssign d r =>
    simp only [step, Res.bind_ok_iff, liveHandle_ok] at hs
    obtain ⟨y, ⟨h1, _⟩, x, ⟨h2, _⟩, h3⟩ := hs
    by_cases hdr : d = r
    · rw [if_pos hdr] at h3; cases h3; exact ⟨Nat.le_refl _, by omega⟩
    · rw [if_neg hdr] at h3; cases h3
      have e1 := sum_set (one o) s.handles r x ⟨none, none, false⟩ h2
      have e2 := sum_set (one o) (s.handles.set r ⟨none, none, false⟩) d y x (by
        rw [List.getElem?_set_ne (by omega)]; exact h1)
      have h0 : one o ⟨none, none, false⟩ = 0 := by simp [one]
      refine ⟨Nat.le_refl _, ?_⟩
      simp only [cnt]; omega
  | drop h =>
    simp only [step, Res.bind_ok_iff, liveHandle_ok] at hs
    obtain ⟨x, ⟨h1, _⟩, h2⟩ := hs
    have e1 := sum_set (one o) s.handles h x ⟨none, none, true⟩ h1
    have h0 : one o ⟨none, none, true⟩ = 0 := by simp [one]
    cases ep : x.ptr with
    | none =>
      simp only [ep, Res.ok.injEq] at h2
      subst h2
      exact ⟨Nat.le_refl _, by simp only [cnt]; omega⟩
    | some ob =>
      cases eq : x.pool with
      | none =>
        simp only [ep, eq, Res.ok.injEq] at h2; subst h2
        exact ⟨Nat.le_refl _, by simp only [cnt]; omega⟩
      | some p =>
        simp only [ep, eq] at h2
        cases eq2 : s.pools[p]? with
        | none =>
          simp only [eq2, Res.ok.injEq] at h2; subst h2
          exact ⟨Nat.le_refl _, by simp only [cnt]; omega⟩
        | some q =>
          simp only [eq2] at h2
          by_cases ha : q.alive = true
          · rw [if_pos ha] at h2; cases h2
            have e2 := sum_set (fun q : PoolSt => q.objs.count o) s.pools p q { q with objs := q.objs ++ [ob] } eq2
            simp only [List.count_append, List.count_singleton, beq_iff_eq] at e2
            refine ⟨Nat.le_refl _, ?_⟩
            simp only [one, ep, Option.some.injEq] at e1 h0
            simp only [cnt]
            have h0' : one o ⟨none, none, true⟩ = 0 := by simp [one]
            simp only [one] at *
            omega
          · rw [if_neg ha] at h2; cases h2
            exact ⟨Nat.le_refl _, by simp only [cnt]; omega⟩

theorem good_step {s s' : St} {op : Op} (h : Good s) (hs : step s op = .ok s') : Good s' := by
  intro o
  obtain ⟨h1, h2⟩ := cnt_step hs o
  obtain ⟨h3, h4⟩ := h o
  constructor
  · by_cases hc : s.next ≤ o ∧ o < s'.next
    · rw [if_pos hc] at h2
      have := h4 hc.1; omega
    · rw [if_neg hc] at h2; omega
  · intro h5
    rw [if_neg (by omega)] at h2
    have := h4 (by omega)
    omega

theorem good_run : ∀ (ops : List Op) (s s' : St), Good s → run s ops = .ok s' → Good s' := by
  intro ops
  induction ops with
  | nil => intro s s' h hr; cases hr; exact h
  | cons o os ih =>
    intro s s' h hr
    simp only [run, Res.bind_ok_iff] at hr
    obtain ⟨s1, h1, h2⟩ := hr
    exact ih s1 s' (good_step h h1) h2

/-- **C14**, first half. After any history, no object is held by two handles, held and waiting in a pool,
or waiting in two places. -/
theorem pool_exclusive (ops : List Op) (s : St) (hr : run St.init ops = .ok s) (o : Nat) :
    (∀ h h', Holds s h o → Holds s h' o → h = h') ∧
    (∀ h p, Holds s h o → ¬ Waits s p o) ∧
    (∀ p p', Waits s p o → Waits s p' o → p = p') ∧
    (∀ (p : Nat) (q : PoolSt), s.pools[p]? = some q → q.objs.Nodup) := by
  have hg : Good s := good_run ops _ s (fun o => ⟨by simp [cnt, St.init], fun _ => by simp [cnt, St.init]⟩) hr
  have hw : ∀ (q : PoolSt), o ∈ q.objs → 1 ≤ q.objs.count o := fun q h => List.one_le_count_iff.2 h
  have hc := (hg o).1
  simp only [cnt] at hc
  refine ⟨?_, ?_, ?_, ?_⟩
  · rintro h h' ⟨x, h1, h2⟩ ⟨y, h3, h4⟩
    apply Decidable.byContradiction
    intro hne
    have := sum_ge2 (one o) s.handles h h' x y h1 h3 hne
    have e1 : one o x = 1 := by simp [one, h2]
    have e2 : one o y = 1 := by simp [one, h4]
    omega
  · rintro h p ⟨x, h1, h2⟩ ⟨q, h3, h4⟩
    have e1 := sum_ge (one o) s.handles h x h1
    have e2 := sum_ge (fun q : PoolSt => q.objs.count o) s.pools p q h3
    have e3 := hw q h4
    have e4 : one o x = 1 := by simp [one, h2]
    omega
  · rintro p p' ⟨q, h1, h2⟩ ⟨q', h3, h4⟩
    apply Decidable.byContradiction
    intro hne
    have := sum_ge2 (fun q : PoolSt => q.objs.count o) s.pools p p' q q' h1 h3 hne
    have e3 := hw q h2
    have e4 := hw q' h4
    omega
  · intro p q h1
    rw [List.nodup_iff_count]
    intro o'
    have e2 := sum_ge (fun q : PoolSt => q.objs.count o') s.pools p q h1
    have := (hg o').1
    simp only [cnt] at this
    omega

/-! ### conservation -/

theorem countP_append_one {β : Type} (f : β → Bool) (l : List β) (x : β) :
    (l ++ [x]).countP f = l.countP f + if f x then 1 else 0 := by
  rw [List.countP_append]; simp [List.countP_cons]

theorem countP_set {β : Type} (f : β → Bool) (l : List β) (i : Nat) (a b : β) (h : l[i]? = some a) :
    (l.set i b).countP f + (if f a then 1 else 0) = l.countP f + if f b then 1 else 0 := by
  induction l generalizing i with
  | nil => simp at h
  | cons x xs ih =>
    cases i with
    | zero => simp at h; subst h; simp [List.countP_cons]; omega
    | succ i => simp at h; have := ih i h; simp [List.countP_cons]; omega

theorem poolSize_set (s : St) (p q : Nat) (x : PoolSt) (hn : Nat) (hs : List Handle) (h : q < s.pools.length) :
    poolSize ⟨hn, s.pools.set q x, hs⟩ p = if p = q then x.objs.length else poolSize s p := by
  simp only [poolSize]
  by_cases hp : p = q
  · subst hp; simp [h]
  · rw [List.getElem?_set_ne (by omega), if_neg hp]

theorem census_step {s s' : St} {op : Op} {p : Nat} (hs : step s op = .ok s') (hp : ∃ q, livePool s p = .ok q)
    (hg : Gentle p s op) :
    poolSize s' p + heldFor s' p = poolSize s p + heldFor s p + made p s op ∧ ∃ q, livePool s' p = .ok q := by
  obtain ⟨qp, hqp⟩ := hp
  obtain ⟨hqp1, hqp2⟩ := livePool_ok.1 hqp
  have hlt : p < s.pools.length := (List.getElem?_eq_some_iff.1 hqp1).1
  have hps : poolSize s p = qp.objs.length := by simp [poolSize, hqp1]
  have alive_set : ∀ (n : Nat) (q : Nat) (x : PoolSt) (hs : List Handle), q < s.pools.length → (q = p → x.alive = true) →
      ∃ y, livePool ⟨n, s.pools.set q x, hs⟩ p = .ok y := by
    intro n q x hs hq ha
    by_cases hpq : q = p
    · exact ⟨x, livePool_ok.2 ⟨by simp [hpq, hlt], ha hpq⟩⟩
    · exact ⟨qp, livePool_ok.2 ⟨by simp only []; rw [List.getElem?_set_ne hpq]; exact hqp1, hqp2⟩⟩
  have htake : ∀ (q : Nat) (qs : PoolSt) (s2 : St), s.pools[q]? = some qs → qs.alive = true → take s q qs = some s2 →
      poolSize s2 p + heldFor s2 p = poolSize s p + heldFor s p ∧ ∃ y, livePool s2 p = .ok y := by
    intro q qs s2 h1 h2 e
    obtain ⟨o, rest, h3, rfl⟩ := take_some e
    have hq : q < s.pools.length := (List.getElem?_eq_some_iff.1 h1).1
    refine ⟨?_, alive_set _ _ _ _ hq (fun _ => h2)⟩
    rw [poolSize_set s p q _ _ _ hq]
    simp only [heldFor, countP_append_one]
    by_cases hpq : p = q
    · subst hpq
      rw [hqp1] at h1; cases h1
      rw [hps, h3]; simp; omega
    · rw [if_neg hpq]
      have : ¬ (q = p) := fun h => hpq h.symm
      simp [this]
  cases op with
  | newPool =>
    simp only [step, Res.ok.injEq] at hs; subst hs
    constructor
    · simp only [poolSize, heldFor, made]
      rw [List.getElem?_append_left hlt]
      omega
    · exact ⟨qp, livePool_ok.2 ⟨by simp only []; rw [List.getElem?_append_left hlt]; exact hqp1, hqp2⟩⟩
  | destroyPool q =>
    simp only [step, Res.bind_ok_iff, livePool_ok, Res.ok.injEq] at hs
    obtain ⟨x, ⟨h1, _⟩, rfl⟩ := hs
    have hq : q < s.pools.length := (List.getElem?_eq_some_iff.1 h1).1
    have hne : q ≠ p := hg
    refine ⟨?_, alive_set _ _ _ _ hq (fun h => absurd h hne)⟩
    rw [poolSize_set s p q _ _ _ hq, if_neg (fun h => hne h.symm)]
    simp [heldFor, made]
  | resize q n =>
    simp only [step, Res.bind_ok_iff, livePool_ok, Res.ok.injEq] at hs
    obtain ⟨x, ⟨h1, h2⟩, rfl⟩ := hs
    have hq : q < s.pools.length := (List.getElem?_eq_some_iff.1 h1).1
    refine ⟨?_, alive_set _ _ _ _ hq (fun _ => h2)⟩
    rw [poolSize_set s p q _ _ _ hq]
    by_cases hpq : q = p
    · have := hg hpq
      rw [if_pos hpq.symm]
      simp [heldFor, made, hpq]; omega
    · rw [if_neg (fun h => hpq h.symm)]
      simp [heldFor, made, hpq]
  | get q =>
    simp only [step, Res.bind_ok_iff, livePool_ok] at hs
    obtain ⟨x, ⟨h1, h2⟩, h3⟩ := hs
    cases e : take s q x with
    | some s2 =>
      simp only [e, Res.ok.injEq] at h3; subst h3
      simpa [made] using htake q x _ h1 h2 e
    | none =>
      simp only [e, Res.ok.injEq] at h3; subst h3
      refine ⟨?_, qp, livePool_ok.2 ⟨hqp1, hqp2⟩⟩
      simp [poolSize, heldFor, made, List.countP_cons]
  | getAlloc q =>
    simp only [step, Res.bind_ok_iff, livePool_ok] at hs
    obtain ⟨x, ⟨h1, h2⟩, h3⟩ := hs
    cases e : take s q x with
    | some s2 =>
      simp only [e, Res.ok.injEq] at h3; subst h3
      obtain ⟨o, rest, h4, _⟩ := take_some e
      have hne : poolSize s q ≠ 0 := by simp [poolSize, h1, h4]
      have := htake q x _ h1 h2 e
      simpa [made, hne] using this
    | none =>
      simp only [e, Res.ok.injEq] at h3; subst h3
      refine ⟨?_, qp, livePool_ok.2 ⟨hqp1, hqp2⟩⟩
      have h0 : poolSize s q = 0 := by simp [poolSize, h1, take_none e]
      have e1 : poolSize { s with next := s.next + 1, handles := s.handles ++ [⟨some s.next, some q, false⟩] } p = poolSize s p := rfl
      rw [e1]
      simp only [heldFor, countP_append_one, made, h0]
      by_cases hpq : q = p
      · simp [hpq]; omega
      · simp [hpq]
  | moveCtor h =>
    simp only [step, Res.bind_ok_iff, liveHandle_ok, Res.ok.injEq] at hs
    obtain ⟨x, ⟨h1, _⟩, rfl⟩ := hs
    refine ⟨?_, qp, livePool_ok.2 ⟨hqp1, hqp2⟩⟩
    have e := countP_set (fun x => decide (x.pool = some p ∧ x.ptr.isSome)) s.handles h x ⟨none, none, false⟩ h1
    have e1 : poolSize { s with handles := s.handles.set h ⟨none, none, false⟩ ++ [x] } p = poolSize s p := rfl
    rw [e1]
    simp only [heldFor, countP_append_one, made]
    simp only [] at e
    have h0 : (if decide ((none : Option Nat) = some p ∧ (none : Option Nat).isSome = true) = true then 1 else 0) = 0 := by simp
    rw [h0] at e
    omega
  | moveAssign d r =>
    simp only [step, Res.bind_ok_iff, liveHandle_ok] at hs
    obtain ⟨y, ⟨h1, _⟩, x, ⟨h2, _⟩, h3⟩ := hs
    by_cases hdr : d = r
    · rw [if_pos hdr] at h3; cases h3
      exact ⟨by simp [made], qp, hqp⟩
    · rw [if_neg hdr] at h3; cases h3
      refine ⟨?_, qp, livePool_ok.2 ⟨hqp1, hqp2⟩⟩
      have hy : y.ptr = none := by
        cases hyp : y.ptr with
        | none => rfl
        | some o => exact absurd ⟨y, h1, hyp⟩ ((hg.resolve_left hdr) o)
      have e1 := countP_set (fun x => decide (x.pool = some p ∧ x.ptr.isSome)) s.handles r x ⟨none, none, false⟩ h2
      have e2 := countP_set (fun x => decide (x.pool = some p ∧ x.ptr.isSome)) (s.handles.set r ⟨none, none, false⟩) d y x (by
        rw [List.getElem?_set_ne (by omega)]; exact h1)
      have e3 : poolSize { s with handles := (s.handles.set r ⟨none, none, false⟩).set d x } p = poolSize s p := rfl
      rw [e3]
      simp only [heldFor, made]
      simp [hy] at e1 e2
      simp
      omega
  | drop h =>
    simp only [step, Res.bind_ok_iff, liveHandle_ok] at hs
    obtain ⟨x, ⟨h1, _⟩, h2⟩ := hs
    have e1 := countP_set (fun x => decide (x.pool = some p ∧ x.ptr.isSome)) s.handles h x ⟨none, none, true⟩ h1
    have hkeep : ¬ (x.pool = some p ∧ x.ptr.isSome) → ∀ s2 : St, s2.pools = s.pools →
        s2.handles = s.handles.set h ⟨none, none, true⟩ →
        poolSize s2 p + heldFor s2 p = poolSize s p + heldFor s p + made p s (.drop h) ∧ ∃ q, livePool s2 p = .ok q := by
      intro hn s2 g1 g2
      refine ⟨?_, qp, livePool_ok.2 ⟨by rw [g1]; exact hqp1, hqp2⟩⟩
      simp only [poolSize, heldFor, made, g1, g2]
      simp [hn] at e1
      simp
      omega
    cases ep : x.ptr with
    | none =>
      simp only [ep, Res.ok.injEq] at h2
      exact hkeep (by simp [ep]) s' (by rw [← h2]) (by rw [← h2])
    | some ob =>
      cases eq : x.pool with
      | none =>
        simp only [ep, eq, Res.ok.injEq] at h2
        exact hkeep (by simp [eq]) s' (by rw [← h2]) (by rw [← h2])
      | some q =>
        simp only [ep, eq] at h2
        by_cases hpq : q = p
        · subst hpq
          simp only [hqp1, hqp2, if_true, Res.ok.injEq] at h2
          subst h2
          refine ⟨?_, alive_set _ _ _ _ hlt (fun _ => rfl)⟩
          rw [poolSize_set s q q _ _ _ hlt, if_pos rfl, hps]
          simp only [heldFor, made]
          simp [ep, eq] at e1
          simp
          omega
        · cases eq2 : s.pools[q]? with
          | none =>
            simp only [eq2, Res.ok.injEq] at h2
            exact hkeep (by simp [eq, hpq]) s' (by rw [← h2]) (by rw [← h2])
          | some qs =>
            simp only [eq2] at h2
            have hq : q < s.pools.length := (List.getElem?_eq_some_iff.1 eq2).1
            by_cases ha : qs.alive = true
            · rw [if_pos ha] at h2; cases h2
              refine ⟨?_, alive_set _ _ _ _ hq (fun h => absurd h hpq)⟩
              rw [poolSize_set s p q _ _ _ hq, if_neg (fun h => hpq h.symm)]
              simp only [heldFor, made]
              simp [eq, hpq] at e1
              simp
              omega
            · rw [if_neg ha] at h2
              simp only [Res.ok.injEq] at h2
              exact hkeep (by simp [eq, hpq]) s' (by rw [← h2]) (by rw [← h2])

/-- **C14**, second half. From any state in which pool `p` exists, over any history that does not
move-assign over a holding handle, resize `p` while it has objects or destroy it, the objects waiting in
`p` plus those held for `p` grow exactly by the objects created for `p`. -/
theorem pool_conserved (p : Nat) : ∀ (ops : List Op) (s s' : St), (∃ q, livePool s p = .ok q) →
    GentleRun p s ops → run s ops = .ok s' →
    poolSize s' p + heldFor s' p = poolSize s p + heldFor s p + madeBy p s ops := by
  intro ops
  induction ops with
  | nil => intro s s' _ _ hr; cases hr; simp [madeBy]
  | cons o os ih =>
    intro s s' hp hg hr
    simp only [run, Res.bind_ok_iff] at hr
    obtain ⟨s1, h1, h2⟩ := hr
    obtain ⟨h3, h4⟩ := census_step h1 hp hg.1
    have h5 := ih s1 s' h4 (hg.2 s1 h1) h2
    simp only [madeBy, h1]
    omega

/-- The object dropped last is the one handed out next. -/
theorem pool_last_dropped_first_got (s s1 s2 : St) (h o p : Nat) (x : Handle) (hx : s.handles[h]? = some x)
    (hop : x.ptr = some o ∧ x.pool = some p) (hp : ∃ q, livePool s p = .ok q)
    (h1 : step s (.drop h) = .ok s1) (h2 : step s1 (.get p) = .ok s2) :
    Holds s2 (s2.handles.length - 1) o ∧ poolSize s2 p = poolSize s p := by
  obtain ⟨q, hq⟩ := hp
  obtain ⟨hq1, hq2⟩ := livePool_ok.1 hq
  have hlt : p < s.pools.length := (List.getElem?_eq_some_iff.1 hq1).1
  simp only [step, Res.bind_ok_iff, liveHandle_ok] at h1
  obtain ⟨y, ⟨e1, _⟩, e2⟩ := h1
  rw [hx] at e1; cases e1
  simp only [hop.1, hop.2, hq1, hq2, if_true, Res.ok.injEq] at e2
  subst e2
  simp only [step, Res.bind_ok_iff, livePool_ok] at h2
  obtain ⟨q2, ⟨f1, f2⟩, f3⟩ := h2
  simp [hlt] at f1
  subst f1
  simp only [take, List.getLast?_append, List.getLast?_singleton, Option.some_or, Res.ok.injEq] at f3
  subst f3
  constructor
  · exact ⟨⟨some o, some p, false⟩, by simp, rfl⟩
  · have : poolSize s p = q.objs.length := by simp [poolSize, hq1]
    rw [this]; simp [poolSize, hlt]

/-- `getAlloc` never hands out an empty handle. -/
theorem pool_getAlloc_holds (s s' : St) (p : Nat) (h : step s (.getAlloc p) = .ok s') :
    ∃ o, Holds s' (s'.handles.length - 1) o := by
  simp only [step, Res.bind_ok_iff, livePool_ok] at h
  obtain ⟨x, ⟨h1, h2⟩, h3⟩ := h
  cases e : take s p x with
  | some s2 =>
    simp only [e, Res.ok.injEq] at h3; subst h3
    obtain ⟨o, rest, _, rfl⟩ := take_some e
    exact ⟨o, ⟨some o, some p, false⟩, by simp, rfl⟩
  | none =>
    simp only [e, Res.ok.injEq] at h3; subst h3
    exact ⟨s.next, ⟨some s.next, some p, false⟩, by simp, rfl⟩

/-- The excluded move assignment loses an object: it is neither returned to the pool nor held, although
it was created by the pool's `resize` and never dropped. -/
theorem pool_moveAssign_loses : ∃ s, run St.init [.newPool, .resize 0 2, .get 0, .get 0, .moveAssign 0 1] = .ok s ∧
    s.next = 2 ∧ poolSize s 0 + heldFor s 0 = 1 := ⟨_, rfl, by decide⟩

-- a history with moves, an exhausted pool, a second pool and recycling
def demoOps : List Op := [.newPool, .newPool, .resize 0 2, .get 0, .getAlloc 0, .getAlloc 0, .moveCtor 1, .drop 1,
  .drop 3, .get 0, .getAlloc 1, .moveAssign 1 2]
example : ∃ s, run St.init (demoOps.take 11) = .ok s ∧ s.next = 4 ∧ poolSize s 0 + heldFor s 0 = 3 ∧
    heldFor s 1 = 1 ∧ Holds s 4 0 := ⟨_, rfl, by decide, by decide, by decide, _, rfl, rfl⟩
example : GentleRun 0 ⟨0, [⟨[], true⟩], []⟩ [.resize 0 2, .get 0, .moveCtor 0, .moveAssign 0 1, .drop 0] := by
  refine ⟨fun _ => rfl, fun s h => ?_⟩
  cases h
  refine ⟨trivial, fun s h => ?_⟩
  cases h
  refine ⟨trivial, fun s h => ?_⟩
  cases h
  refine ⟨Or.inr ?_, fun s h => ?_⟩
  · rintro o ⟨x, h1, h2⟩
    cases h1; simp at h2
  cases h
  exact ⟨trivial, fun _ _ => trivial⟩

end DNDSR.Pool
