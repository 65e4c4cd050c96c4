import Verif.Proof.Node2Cell
import Mathlib.Data.List.Nodup

/-! Helper lemmas for `Verif.Props.Node2Cell`: the loops. -/

namespace DNDSR.N2C

open DNDSR.Arr hiding Array
open DNDSR.IMap DNDSR.Tran DNDSR.MeshAdj DNDSR.Part

theorem toGlobal_eq {lens : List Nat} {g : GOM} (hg : Built lens g) {r n : Nat} (hr : lens[r]? = some n) (i : Nat) (hi : i < n) :
    local2GlobalNoSon g r n i = .ok ((before lens r : Int) + i) := by
  obtain ⟨h1, h2⟩ := List.getElem?_eq_some_iff.1 hr
  rw [local2GlobalNoSon, if_neg (by unfold unInit; omega), if_neg (by omega), Res.assert_true _ (by omega), Res.ok_bind,
    apply_eq hg r h1, if_pos (by omega)]

/-! ### scanning the cells -/

/-- the (node, cell) pairs in the order they are visited -/
def inc (b : Int) (i : Nat) : List (List Int) → List (Int × Int)
  | [] => []
  | row :: rows => row.map (fun q => (q, b + i)) ++ inc b (i + 1) rows

theorem inc_mem (b : Int) : ∀ (rows : List (List Int)) (i : Nat) (q c : Int),
    (q, c) ∈ inc b i rows ↔ ∃ (k : Nat) (row : List Int), rows[k]? = some row ∧ q ∈ row ∧ c = b + ((i + k : Nat) : Int) := by
  intro rows
  induction rows with
  | nil => intro i q c; simp [inc]
  | cons row rows ih =>
    intro i q c
    simp only [inc, List.mem_append, ih, List.mem_map, Prod.mk.injEq]
    constructor
    · rintro (⟨q', h1, rfl, rfl⟩ | ⟨k, row', h1, h2, h3⟩)
      · exact ⟨0, row, rfl, h1, by simp⟩
      · exact ⟨k + 1, row', by simpa using h1, h2, by rw [h3]; congr 2; omega⟩
    · rintro ⟨k, row', h1, h2, h3⟩
      cases k with
      | zero =>
        simp only [List.getElem?_cons_zero, Option.some.injEq] at h1
        subst h1
        exact Or.inl ⟨q, h2, rfl, by simpa using h3.symm⟩
      | succ k =>
        exact Or.inr ⟨k, row', by simpa using h1, h2, by rw [h3]; congr 2; omega⟩

theorem inc_length (b : Int) : ∀ (rows : List (List Int)) (i : Nat), (inc b i rows).length = (rows.map List.length).sum := by
  intro rows
  induction rows with
  | nil => intro i; rfl
  | cons row rows ih => intro i; simp [inc, ih]

theorem scanRow_eq {lens : List Nat} {g : GOM} (hg : Built lens g) (r : Nat) (c : Int) : ∀ (row : List Int) (s : Scan),
    (∀ q ∈ row, 0 ≤ q ∧ q < lens.sum) → ∃ s', scanRow g r (.ok c) s row = .ok s' ∧
      s'.record = insAll s.record (row.map (fun q => (q, c))) ∧
      (∀ q, q ∈ s'.ghosts ↔ q ∈ s.ghosts ∨ (q ∈ row ∧ ¬ Owns lens r q)) ∧ s'.ghosts.length ≤ s.ghosts.length + row.length := by
  intro row
  induction row with
  | nil => intro s _; exact ⟨s, rfl, rfl, by simp, by simp⟩
  | cons q row ih =>
    intro s h
    obtain ⟨o, ho⟩ := owns_exists (h q (by simp)).1 (h q (by simp)).2
    have hs : scanNode g r (.ok c) s q = .ok ⟨if o ≠ r then s.ghosts ++ [q] else s.ghosts, recInsert q c s.record⟩ := by
      rw [scanNode, search_of_owns hg ho, Res.ok_bind]; rfl
    obtain ⟨s', h1, h2, h3, h4⟩ := ih ⟨if o ≠ r then s.ghosts ++ [q] else s.ghosts, recInsert q c s.record⟩
      (fun x hx => h x (by simp [hx]))
    refine ⟨s', by rw [scanRow, hs, Res.ok_bind, h1], by rw [h2]; rfl, ?_, ?_⟩
    · intro x
      rw [h3]
      simp only
      by_cases hor : o = r
      · rw [if_neg (by simp [hor])]
        subst hor
        constructor
        · rintro (h | ⟨h, h'⟩)
          · exact Or.inl h
          · exact Or.inr ⟨by simp [h], h'⟩
        · rintro (h | ⟨h, h'⟩)
          · exact Or.inl h
          · rcases List.mem_cons.1 h with rfl | h
            · exact absurd ho h'
            · exact Or.inr ⟨h, h'⟩
      · rw [if_pos hor, List.mem_append, List.mem_singleton]
        have hno : ¬ Owns lens r q := fun h' => hor (owns_unique ho h')
        constructor
        · rintro ((h | rfl) | ⟨h, h'⟩)
          · exact Or.inl h
          · exact Or.inr ⟨by simp, hno⟩
          · exact Or.inr ⟨by simp [h], h'⟩
        · rintro (h | ⟨h, h'⟩)
          · exact Or.inl (Or.inl h)
          · rcases List.mem_cons.1 h with rfl | h
            · exact Or.inl (Or.inr rfl)
            · exact Or.inr ⟨h, h'⟩
    · rw [List.length_cons]
      have : (if o ≠ r then s.ghosts ++ [q] else s.ghosts).length ≤ s.ghosts.length + 1 := by split <;> simp
      simp only at h4
      omega

theorem scanRow_bad {lens : List Nat} {g : GOM} (hg : Built lens g) (r : Nat) (c : Int) : ∀ (row : List Int) (s : Scan),
    ¬ (∀ q ∈ row, 0 ≤ q ∧ q < lens.sum) → scanRow g r (.ok c) s row = .abort := by
  intro row
  induction row with
  | nil => intro s h; exact absurd (by simp) h
  | cons q row ih =>
    intro s h
    rw [scanRow]
    rcases search_eq hg q with ⟨o, ho, hs⟩ | ⟨hq, hs⟩
    · rw [scanNode, hs, Res.ok_bind]
      simp only [Res.ok_bind]
      apply ih
      intro h'
      apply h
      intro x hx
      rcases List.mem_cons.1 hx with rfl | hx
      · exact owns_range ho
      · exact h' x hx
    · rw [scanNode, hs, Res.ok_bind]; rfl

theorem scanCells_eq {nlens clens : List Nat} {gn gc : GOM} (hn : Built nlens gn) (hc : Built clens gc) {r n : Nat}
    (hr : clens[r]? = some n) : ∀ (rows : List (List Int)) (i : Nat) (s : Scan), i + rows.length ≤ n →
    ((∀ row ∈ rows, ∀ q ∈ row, 0 ≤ q ∧ q < nlens.sum) → ∃ s', scanCells gn gc r n i s rows = .ok s' ∧
      s'.record = insAll s.record (inc (before clens r) i rows) ∧
      (∀ q, q ∈ s'.ghosts ↔ q ∈ s.ghosts ∨ ((∃ row ∈ rows, q ∈ row) ∧ ¬ Owns nlens r q)) ∧
      s'.ghosts.length ≤ s.ghosts.length + (rows.map List.length).sum) ∧
    (¬ (∀ row ∈ rows, ∀ q ∈ row, 0 ≤ q ∧ q < nlens.sum) → scanCells gn gc r n i s rows = .abort) := by
  intro rows
  induction rows with
  | nil => intro i s _; exact ⟨fun _ => ⟨s, rfl, rfl, by simp, by simp⟩, fun h => absurd (by simp) h⟩
  | cons row rows ih =>
    intro i s hi
    rw [List.length_cons] at hi
    have hg := toGlobal_eq hc hr i (by omega)
    by_cases hrow : ∀ q ∈ row, 0 ≤ q ∧ q < nlens.sum
    · obtain ⟨s1, a1, a2, a3, a4⟩ := scanRow_eq hn r ((before clens r : Int) + i) row s hrow
      obtain ⟨b1, b2⟩ := ih (i + 1) s1 (by omega)
      constructor
      · intro h
        obtain ⟨s2, c1, c2, c3, c4⟩ := b1 (fun x hx => h x (by simp [hx]))
        refine ⟨s2, by rw [scanCells, hg, a1, Res.ok_bind, c1], ?_, ?_, ?_⟩
        · rw [c2, a2, ← insAll_append]; rfl
        · intro q
          rw [c3, a3]
          constructor
          · rintro ((h | ⟨h1, h2⟩) | ⟨⟨x, h1, h2⟩, h3⟩)
            · exact Or.inl h
            · exact Or.inr ⟨⟨row, by simp, h1⟩, h2⟩
            · exact Or.inr ⟨⟨x, by simp [h1], h2⟩, h3⟩
          · rintro (h | ⟨⟨x, h1, h2⟩, h3⟩)
            · exact Or.inl (Or.inl h)
            · rcases List.mem_cons.1 h1 with rfl | h1
              · exact Or.inl (Or.inr ⟨h2, h3⟩)
              · exact Or.inr ⟨⟨x, h1, h2⟩, h3⟩
        · rw [List.map_cons, List.sum_cons]; omega
      · intro h
        rw [scanCells, hg, a1, Res.ok_bind]
        apply b2
        intro h'
        apply h
        intro x hx
        rcases List.mem_cons.1 hx with rfl | hx
        · exact hrow
        · exact h' x hx
    · refine ⟨fun h => absurd (h row (by simp)) hrow, fun _ => ?_⟩
      rw [scanCells, hg, scanRow_bad hn r _ row s hrow]; rfl

/-! ### the rows of the own nodes -/

theorem ownRows_eq (h : Hash) {lens : List Nat} {g : GOM} (hg : Built lens g) {r n : Nat} (hr : lens[r]? = some n) (m : Rec) :
    ∀ (k i : Nat), i + k ≤ n → ∃ es, ownRows h g r n m i k = .ok es ∧
      (∀ x ∈ es, (i : Int) ≤ x.1 ∧ x.1 < i + k) ∧ (es.map (·.1)).Nodup ∧
      ∀ (j : Nat) (s : List Int), i ≤ j → j < i + k → (((j : Int), s) ∈ es ↔ ∃ t, recGet m ((before lens r : Int) + j) = some t ∧ s = h.set t) := by
  intro k
  induction k with
  | zero => intro i _; exact ⟨[], rfl, by simp, by simp, by intro j s h1 h2; omega⟩
  | succ k ih =>
    intro i hi
    obtain ⟨es, h1, h2, h3, h4⟩ := ih (i + 1) (by omega)
    have hq := toGlobal_eq hg hr i (by omega)
    cases hm : recGet m ((before lens r : Int) + i) with
    | none =>
      refine ⟨es, by rw [ownRows, hq, Res.ok_bind, h1, Res.ok_bind, hm], ?_, h3, ?_⟩
      · intro x hx
        have := h2 x hx; omega
      · intro j s hj1 hj2
        rcases Nat.eq_or_lt_of_le hj1 with rfl | hj
        · rw [hm]
          constructor
          · intro hx; have := (h2 _ hx).1; simp only at this; omega
          · rintro ⟨t, ht, _⟩; cases ht
        · exact h4 j s hj (by omega)
    | some t =>
      refine ⟨((i : Int), h.set t) :: es, by rw [ownRows, hq, Res.ok_bind, h1, Res.ok_bind, hm], ?_, ?_, ?_⟩
      · intro x hx
        rcases List.mem_cons.1 hx with rfl | hx
        · simp only; omega
        · have := h2 x hx; omega
      · rw [List.map_cons, List.nodup_cons]
        refine ⟨?_, h3⟩
        intro hx
        obtain ⟨y, hy, he⟩ := List.mem_map.1 hx
        have := (h2 y hy).1
        simp only at he
        omega
      · intro j s hj1 hj2
        rw [List.mem_cons]
        rcases Nat.eq_or_lt_of_le hj1 with rfl | hj
        · rw [hm]
          constructor
          · rintro (hx | hx)
            · cases hx; exact ⟨t, rfl, rfl⟩
            · have := (h2 _ hx).1; simp only at this; omega
          · rintro ⟨t', ht, rfl⟩; cases ht; exact Or.inl rfl
        · rw [← h4 j s hj (by omega)]
          constructor
          · rintro (hx | hx)
            · cases hx; omega
            · exact hx
          · exact Or.inr

theorem ownFill_eq (h : Hash) {lens : List Nat} {g : GOM} (hg : Built lens g) {r n : Nat} (hr : lens[r]? = some n) (m : Rec)
    (hb : ∀ k s, recGet m k = some s → (h.set s).length < int32Max) :
    ∃ rows, (do
        let es ← ownRows h g r n m 0 n
        fill n es) = .ok (rowArr rows) ∧ rows.length = n ∧ Reachable 0 tyAdj (rowArr rows) ∧
      ∀ j : Nat, j < n → rows[j]? = some (((recGet m ((before lens r : Int) + j)).map h.set).getD []) := by
  obtain ⟨es, h1, h2, h3, h4⟩ := ownRows_eq h hg hr m n 0 (by omega)
  have hf := fill_eq n es (fun x hx => by have := h2 x hx; omega)
  refine ⟨setRows (List.replicate n []) es, by rw [h1, Res.ok_bind, hf], by rw [setRows_length]; simp, ?_, ?_⟩
  · apply fill_reachable n es _ _ hf
    intro x hx
    have hx' := h2 x hx
    have e : x = ((x.1.toNat : Int), x.2) := by
      rw [show ((x.1.toNat : Nat) : Int) = x.1 by omega]
    rw [e] at hx
    obtain ⟨t, ht, he⟩ := (h4 x.1.toNat x.2 (by omega) (by omega)).1 hx
    rw [he]; exact hb _ _ ht
  · intro j hj
    obtain ⟨g1, g2⟩ := setRows_get es (List.replicate n []) j (by simpa using hj) (fun x hx => by have := h2 x hx; omega) h3
    cases hm : recGet m ((before lens r : Int) + j) with
    | some t =>
      rw [g1 (h.set t) ((h4 j _ (by omega) (by omega)).2 ⟨t, hm, rfl⟩)]; rfl
    | none =>
      rw [g2]
      · simp [hj]
      · intro hx
        obtain ⟨y, hy, he⟩ := List.mem_map.1 hx
        have hy' : ((j : Int), y.2) ∈ es := by rw [← he]; exact hy
        obtain ⟨t, ht, _⟩ := (h4 j _ (by omega) (by omega)).1 hy'
        rw [hm] at ht; cases ht

/-! ### the rows of the ghost nodes -/

theorem ghostRows_eq (h : Hash) {mp : Map} (P : Int → Prop) (hmain : ∀ q, P q → ∃ v, mp.search q = .ok (some (-1, v)))
    (hgh : ∀ q, ¬ P q → ∀ k : Nat, mp.ghostIndex[k]? = some q → ∃ o : Nat, mp.search q = .ok (some ((o : Int), (k : Int))))
    : ∀ (m : Rec), (m.map (·.1)).Nodup → (∀ q ∈ m.map (·.1), P q ∨ (¬ P q ∧ q ∈ mp.ghostIndex)) →
      (∀ q ∈ mp.ghostIndex, ¬ P q) → mp.ghostIndex.Nodup →
      ∃ es, ghostRows h mp m = .ok es ∧
        (∀ x ∈ es, ∃ (j : Nat) (k : Int) (s : List Int), x = ((j : Int), h.set s) ∧ mp.ghostIndex[j]? = some k ∧ (k, s) ∈ m) ∧
        (es.map (·.1)).Nodup ∧
        (∀ (j : Nat) (k : Int) (s : List Int), mp.ghostIndex[j]? = some k → (k, s) ∈ m → ((j : Int), h.set s) ∈ es) ∧
        ((∀ s, (h.set s).length = s.length) → (es.map (fun x => x.2.length)).sum ≤ recSize m) := by
  intro m
  induction m with
  | nil => intro _ _ _ _; exact ⟨[], rfl, by simp, by simp, by simp, by simp [recSize]⟩
  | cons p m ih =>
    intro hn hk hg hd
    obtain ⟨k, s⟩ := p
    rw [List.map_cons, List.nodup_cons] at hn
    obtain ⟨es, h1, h2, h3, h4, h5⟩ := ih hn.2 (fun q hq => hk q (by rw [List.map_cons]; exact List.mem_cons_of_mem _ hq)) hg hd
    rcases hk k (by simp) with hp | ⟨hnp, hq⟩
    · obtain ⟨v, hv⟩ := hmain k hp
      refine ⟨es, ?_, ?_, h3, ?_, ?_⟩
      · rw [ghostRows, hv, Res.ok_bind]
        simp only [h1, Res.ok_bind]
        rw [if_neg (by omega)]
      · intro x hx
        obtain ⟨j, k', s', e1, e2, e3⟩ := h2 x hx
        exact ⟨j, k', s', e1, e2, List.mem_cons_of_mem _ e3⟩
      · intro j k' s' hj hm
        rcases List.mem_cons.1 hm with he | hm
        · cases he
          exact absurd hp (hg k (List.mem_of_getElem? hj))
        · exact h4 j k' s' hj hm
      · intro hl
        have := h5 hl
        simp only [recSize, List.map_cons, List.sum_cons] at this ⊢
        omega
    · obtain ⟨j, hj, hje⟩ := List.mem_iff_getElem.1 hq
      have hj' : mp.ghostIndex[j]? = some k := by rw [List.getElem?_eq_getElem hj, hje]
      obtain ⟨o, ho⟩ := hgh k hnp j hj'
      refine ⟨((j : Int), h.set s) :: es, ?_, ?_, ?_, ?_, ?_⟩
      · rw [ghostRows, ho, Res.ok_bind]
        simp only [h1, Res.ok_bind]
        rw [if_pos (by omega)]
      · intro x hx
        rcases List.mem_cons.1 hx with rfl | hx
        · exact ⟨j, k, s, rfl, hj', by simp⟩
        · obtain ⟨j', k', s', e1, e2, e3⟩ := h2 x hx
          exact ⟨j', k', s', e1, e2, List.mem_cons_of_mem _ e3⟩
      · rw [List.map_cons, List.nodup_cons]
        refine ⟨?_, h3⟩
        intro hx
        obtain ⟨y, hy, he⟩ := List.mem_map.1 hx
        obtain ⟨j', k', s', e1, e2, e3⟩ := h2 y hy
        rw [e1] at he
        simp only at he
        have : j' = j := by omega
        subst this
        rw [hj'] at e2; cases e2
        exact hn.1 (List.mem_map.2 ⟨_, e3, rfl⟩)
      · intro j' k' s' hj1 hm
        rcases List.mem_cons.1 hm with he | hm
        · cases he
          have : j' = j := by
            have hl := (List.getElem?_eq_some_iff.1 hj1).1
            exact (List.Nodup.getElem_inj_iff hd).1 (by rw [hje]; exact (List.getElem?_eq_some_iff.1 hj1).2)
          subst this
          simp
        · exact List.mem_cons_of_mem _ (h4 j' k' s' hj1 hm)
      · intro hl
        have := h5 hl
        simp only [recSize, List.map_cons, List.sum_cons] at this ⊢
        rw [hl]; omega

theorem sum_set_le (rows : List (List Int)) : ∀ (i : Nat) (s : List Int),
    ((rows.set i s).map List.length).sum ≤ (rows.map List.length).sum + s.length := by
  induction rows with
  | nil => intro i s; simp
  | cons row rows ih =>
    intro i s
    cases i with
    | zero => simp only [List.set_cons_zero, List.map_cons, List.sum_cons]; omega
    | succ i => simp only [List.set_cons_succ, List.map_cons, List.sum_cons]; have := ih i s; omega

theorem setRows_sum (es : List (Int × List Int)) : ∀ rows,
    ((setRows rows es).map List.length).sum ≤ (rows.map List.length).sum + (es.map (fun x => x.2.length)).sum := by
  induction es with
  | nil => intro rows; simp [setRows]
  | cons e es ih =>
    intro rows
    have h1 := ih (rows.set e.1.toNat e.2)
    have h2 := sum_set_le rows e.1.toNat e.2
    show ((setRows (rows.set e.1.toNat e.2) es).map List.length).sum ≤ _
    rw [List.map_cons, List.sum_cons]; omega

theorem recSize_perm {m m' : Rec} (h : m'.Perm m) : recSize m' = recSize m := by
  have := h.map (fun p => p.2.length)
  exact this.sum_nat

theorem sum_replicate_nil (n : Nat) : ((List.replicate n ([] : List Int)).map List.length).sum = 0 := by
  induction n with
  | zero => rfl
  | succ n ih => simp only [List.replicate_succ, List.map_cons, List.sum_cons, ih]; rfl

theorem length_le_recSize {m : Rec} {k : Int} {s : List Int} (h : (k, s) ∈ m) : s.length ≤ recSize m := by
  induction m with
  | nil => simp at h
  | cons p m ih =>
    simp only [recSize, List.map_cons, List.sum_cons]
    rcases List.mem_cons.1 h with rfl | h
    · simp only; omega
    · have := ih h; simp only [recSize] at this; omega

/-- filling the son of one rank -/
theorem ghostFill_eq {h : Hash} (hf : Fair h) {mp : Map} (P : Int → Prop)
    (hmain : ∀ q, P q → ∃ v, mp.search q = .ok (some (-1, v)))
    (hgh : ∀ q, ¬ P q → ∀ k : Nat, mp.ghostIndex[k]? = some q → ∃ o : Nat, mp.search q = .ok (some ((o : Int), (k : Int))))
    {m : Rec} (hm : WF m) (hk : ∀ q, q ∈ mp.ghostIndex ↔ q ∈ m.map (·.1) ∧ ¬ P q) (hd : mp.ghostIndex.Nodup)
    (hb : recSize m < int32Max) :
    ∃ rows, (do
        let es ← ghostRows h mp (h.map m)
        fill mp.ghostIndex.length es) = .ok (rowArr rows) ∧ rows.length = mp.ghostIndex.length ∧
      Reachable 0 tyAdj (rowArr rows) ∧ (rows.map List.length).sum ≤ recSize m ∧
      ∀ (j : Nat) (k : Int), mp.ghostIndex[j]? = some k → ∃ s, recGet m k = some s ∧ rows[j]? = some (h.set s) := by
  have hp := hf.map m
  have hpk := hp.map (·.1)
  have hlen : ∀ s, (h.set s).length = s.length := fun s => (hf.set s).length_eq
  obtain ⟨es, h1, h2, h3, h4, h5⟩ := ghostRows_eq h P hmain hgh (h.map m) (hpk.nodup_iff.2 hm.keys) (by
    intro q hq
    by_cases hP : P q
    · exact Or.inl hP
    · exact Or.inr ⟨hP, (hk q).2 ⟨hpk.mem_iff.1 hq, hP⟩⟩) (fun q hq => ((hk q).1 hq).2) hd
  have hes : ∀ x ∈ es, 0 ≤ x.1 ∧ x.1 < mp.ghostIndex.length := by
    intro x hx
    obtain ⟨j, k, s, e1, e2, _⟩ := h2 x hx
    have := (List.getElem?_eq_some_iff.1 e2).1
    rw [e1]; simp only; omega
  have hfe := fill_eq mp.ghostIndex.length es hes
  refine ⟨_, by rw [h1, Res.ok_bind, hfe], by rw [setRows_length]; simp, ?_, ?_, ?_⟩
  · apply fill_reachable _ es _ _ hfe
    intro x hx
    obtain ⟨j, k, s, e1, e2, e3⟩ := h2 x hx
    have := length_le_recSize e3
    rw [recSize_perm hp] at this
    rw [e1, hlen]; omega
  · have := setRows_sum es (List.replicate mp.ghostIndex.length [])
    have h6 := h5 hlen
    rw [recSize_perm hp] at h6
    rw [sum_replicate_nil] at this
    omega
  · intro j k hj
    obtain ⟨hkm, _⟩ := (hk k).1 (List.mem_of_getElem? hj)
    obtain ⟨p, hpm, rfl⟩ := List.mem_map.1 hkm
    refine ⟨p.2, recGet_of_mem hm.keys hpm, ?_⟩
    have hjl := (List.getElem?_eq_some_iff.1 hj).1
    exact (setRows_get es (List.replicate mp.ghostIndex.length []) j (by simpa using hjl) (fun x hx => (hes x hx).1) h3).1 _
      (h4 j p.1 p.2 hj (hp.mem_iff.2 hpm))

/-! ### merging what the others sent -/

theorem foldl_insert (q : Int) (row : List Int) : ∀ m : Rec,
    row.foldl (fun m c => recInsert q c m) m = insAll m (row.map (fun c => (q, c))) := by
  induction row with
  | nil => intro m; rfl
  | cons c row ih => intro m; exact ih (recInsert q c m)

theorem mergePast_eq (glob : List Int) (past : Arr.Array Int) : ∀ (X : List (Int × List Int)) (i : Nat) (m : Rec),
    (∀ (j : Nat) (x : Int × List Int), X[j]? = some x → glob[i + j]? = some x.1 ∧ readRow past (i + j) = .ok x.2) →
    mergePast glob past m i X.length = .ok (insAll m ((X.map (fun x => x.2.map (fun c => (x.1, c)))).flatten)) := by
  intro X
  induction X with
  | nil => intro i m _; rfl
  | cons x X ih =>
    intro i m h
    obtain ⟨h1, h2⟩ := h 0 x rfl
    rw [Nat.add_zero] at h1 h2
    rw [List.length_cons, mergePast, (idx_ok_iff _ _ _).2 h1, Res.ok_bind, h2, Res.ok_bind, foldl_insert]
    rw [ih (i + 1) _ (fun j y hj => by
      have := h (j + 1) y (by simpa using hj)
      rw [show i + 1 + j = i + (j + 1) by omega]; exact this)]
    rw [← insAll_append]; simp

/-! ### the ranks together -/

theorem forRanks_all {β γ : Type} (f : Nat → β → Res γ) (P : Nat → β → γ → Prop) (l : List β)
    (h : ∀ (i : Nat) (x : β), l[i]? = some x → ∃ y, f i x = .ok y ∧ P i x y) :
    ∃ ys, forRanks f 0 l = .ok ys ∧ ys.length = l.length ∧
      ∀ (i : Nat) (x : β) (y : γ), l[i]? = some x → ys[i]? = some y → P i x y := by
  obtain ⟨ys, hys⟩ := forRanks_total f l 0 (fun i x hx => by
    obtain ⟨y, hy, _⟩ := h i x hx; exact ⟨y, by rw [Nat.zero_add]; exact hy⟩)
  obtain ⟨h1, h2⟩ := (forRanks_ok _ _ _ _).1 hys
  refine ⟨ys, hys, h1, ?_⟩
  intro i x y hx hy
  obtain ⟨y', a, b⟩ := h2 i x hx
  obtain ⟨y'', c, d⟩ := h i x hx
  rw [hy] at a; cases a
  rw [Nat.zero_add, c] at b; cases b
  exact d

/-- (rank, position) of the ghosts of all ranks owned by `r`, in the order rank `r` receives them -/
def recvd (maps : List Map) (r : Nat) : List (Nat × Nat) :=
  (maps.zipIdx.map (fun x => (segment (List.range x.1.ghostIndex.length) x.1.ghostStart r).map (fun j => (x.2, j)))).flatten

/-- ghost number `j` of rank `s` -/
def ghostOf (maps : List Map) (s j : Nat) : Int := ((maps[s]?.map Map.ghostIndex).getD [])[j]?.getD 0

theorem ghostOf_eq {maps : List Map} {s j : Nat} {m : Map} {q : Int} (h : maps[s]? = some m) (hj : m.ghostIndex[j]? = some q) :
    ghostOf maps s j = q := by
  rw [ghostOf, h]; simp [hj]

theorem recvd_mem {lens : List Nat} {maps : List Map} (hl : Links lens maps) {r : Nat} (hr : r < lens.length) (s j : Nat) :
    (s, j) ∈ recvd maps r ↔ ∃ (m : Map) (q : Int), maps[s]? = some m ∧ m.ghostIndex[j]? = some q ∧ Owns lens r q := by
  simp only [recvd, List.mem_flatten, List.mem_map]
  have key : ∀ (m : Map), maps[s]? = some m → (j ∈ segment (List.range m.ghostIndex.length) m.ghostStart r ↔
      ∃ q, m.ghostIndex[j]? = some q ∧ Owns lens r q) := by
    intro m hm
    obtain ⟨b, e, h1, h2, h3, h4, _, _, h7⟩ := hl.starts hm r hr
    simp only [segment, h1, h2]
    constructor
    · intro hj
      obtain ⟨i, hi, he⟩ := List.mem_iff_getElem.1 hj
      simp only [List.length_take, List.length_drop, List.length_range] at hi
      rw [List.getElem_take, List.getElem_drop, List.getElem_range] at he
      have hjl : j < m.ghostIndex.length := by omega
      have hg : m.ghostIndex[j]? = some m.ghostIndex[j] := List.getElem?_eq_getElem hjl
      exact ⟨_, hg, (h7 j _ hg).1 (by omega)⟩
    · rintro ⟨q, hq, ho⟩
      have hb := (h7 j q hq).2 ho
      apply List.mem_iff_getElem.2
      refine ⟨j - b, by simp only [List.length_take, List.length_drop, List.length_range]; omega, ?_⟩
      rw [List.getElem_take, List.getElem_drop, List.getElem_range]; omega
  constructor
  · rintro ⟨l, ⟨x, hx, rfl⟩, hmem⟩
    obtain ⟨j', hj', he⟩ := List.mem_map.1 hmem
    cases he
    have hm : maps[x.2]? = some x.1 := List.mem_zipIdx_iff_getElem?.1 hx
    obtain ⟨q, hq⟩ := (key x.1 hm).1 hj'
    exact ⟨x.1, q, hm, hq⟩
  · rintro ⟨m, q, hm, hq⟩
    exact ⟨_, ⟨(m, s), List.mem_zipIdx_iff_getElem?.2 hm, rfl⟩, List.mem_map.2 ⟨j, (key m hm).2 ⟨q, hq⟩, rfl⟩⟩

theorem recvd_global {lens : List Nat} {reqs : List (List Int)} {maps : List Map} (hm : Maps lens reqs maps) {r : Nat} {m : Map}
    (hr : maps[r]? = some m) : m.pushingIndexGlobal = (recvd maps r).map (fun x => ghostOf maps x.1 x.2) := by
  rw [(hm.ok r m hr).pushGlobal, recvd, List.map_flatten, List.map_map]
  congr 1
  apply List.ext_getElem?
  intro s
  rw [List.getElem?_map, List.getElem?_map, List.getElem?_zipIdx]
  cases hs : maps[s]? with
  | none => rfl
  | some ms =>
    simp only [Option.map_some, Function.comp_apply, List.map_map, Nat.zero_add, Option.some.injEq]
    have : ms.ghostIndex = (List.range ms.ghostIndex.length).map (fun j => ghostOf maps s j) := by
      apply List.ext_getElem?
      intro j
      rw [List.getElem?_map]
      by_cases hj : j < ms.ghostIndex.length
      · rw [List.getElem?_range hj, List.getElem?_eq_getElem hj, Option.map_some,
          ghostOf_eq hs (List.getElem?_eq_getElem hj)]
      · rw [List.getElem?_eq_none (by omega), List.getElem?_eq_none (by simpa using hj)]; rfl
    conv => lhs; rw [this, segment_map]
    rfl

theorem recvd_second {lens sonLens : List Nat} {gs : GOM} (hgs : Built sonLens gs) {maps maps2 : List Map} (hl : Links lens maps)
    (hsl : sonLens = maps.map (fun m => m.ghostIndex.length)) (push : List (List Int × List Nat))
    (hp : push = maps.map (fun m => ((List.range m.ghostIndex.length).map Int.ofNat, m.ghostStart)))
    (hz : ∀ p ∈ push, p.2[0]? = some 0) (h2 : createPush gs sonLens push = .ok maps2) {r : Nat} {m2 : Map} (hr : maps2[r]? = some m2) :
    m2.ghostIndex = (recvd maps r).map (fun x => (before sonLens x.1 : Int) + (x.2 : Int)) := by
  obtain ⟨hlen, hall⟩ := createPush_spec hgs push (by rw [hp, hsl]; simp) hz maps2 h2
  have hml : maps2.length = maps.length := by rw [hlen, hsl]; simp
  have hrl := (List.getElem?_eq_some_iff.1 hr).1
  have hget : ∀ s : Nat, push[s]? = maps[s]?.map (fun m => ((List.range m.ghostIndex.length).map Int.ofNat, m.ghostStart)) := by
    intro s; rw [hp, List.getElem?_map]
  obtain ⟨_, _, _, _, _, _, _, _, _, e⟩ := hall r m2 _ hr (by
    rw [hget, List.getElem?_eq_getElem (by omega : r < maps.length)]; rfl)
  rw [e, recvd, List.map_flatten, List.map_map]
  congr 1
  apply List.ext_getElem?
  intro s
  rw [List.getElem?_map, List.getElem?_map, List.getElem?_zipIdx]
  cases hs : maps[s]? with
  | none =>
    rw [List.getElem?_eq_none_iff] at hs
    rw [List.getElem?_eq_none (by omega)]; rfl
  | some ms =>
    have hsl' := (List.getElem?_eq_some_iff.1 hs).1
    obtain ⟨m2s, hm2s⟩ : ∃ m2s, maps2[s]? = some m2s := ⟨maps2[s]'(by omega), by simp⟩
    obtain ⟨_, _, a3, _, a5, _⟩ := hall s m2s _ hm2s (by rw [hget, hs]; rfl)
    simp only [hm2s, Option.map_some, Function.comp_apply, List.map_map, Nat.zero_add, Option.some.injEq]
    rw [a3, a5, List.map_map, segment_map]
    rfl

theorem sublist_sum {a b : List Nat} (h : a.Sublist b) : a.sum ≤ b.sum := by
  induction h with
  | slnil => simp
  | cons x _ ih => simp only [List.sum_cons]; omega
  | cons_cons x _ ih => simp only [List.sum_cons]; omega

theorem flatten_sublist {β : Type} : ∀ (A B : List (List β)), A.length = B.length →
    (∀ (i : Nat) (a b : List β), A[i]? = some a → B[i]? = some b → a.Sublist b) → A.flatten.Sublist B.flatten := by
  intro A
  induction A with
  | nil => intro B hl _; cases B with
    | nil => simp
    | cons b B => simp at hl
  | cons a A ih =>
    intro B hl h
    cases B with
    | nil => simp at hl
    | cons b B =>
      rw [List.flatten_cons, List.flatten_cons]
      exact (h 0 a b rfl rfl).append (ih B (by simpa using hl) (fun i x y hx hy => h (i + 1) x y (by simpa using hx) (by simpa using hy)))

theorem segment_sublist {β : Type} (l : List β) (st : List Nat) (r : Nat) : (segment l st r).Sublist l := by
  simp only [segment]
  split
  · exact (List.take_sublist _ _).trans (List.drop_sublist _ _)
  · simp

theorem sum_flatten_nat (l : List (List Nat)) : l.flatten.sum = (l.map List.sum).sum := by
  induction l with
  | nil => rfl
  | cons a l ih => simp [ih]

theorem sum_le_sum : ∀ (a b : List Nat), a.length = b.length → (∀ (i x y : Nat), a[i]? = some x → b[i]? = some y → x ≤ y) →
    a.sum ≤ b.sum := by
  intro a
  induction a with
  | nil => intro b _ _; simp
  | cons x xs ih =>
    intro b hb h
    cases b with
    | nil => simp at hb
    | cons y ys =>
      have h0 := h 0 x y (by simp) (by simp)
      have := ih ys (by simpa using hb) (fun i x' y' hx hy => h (i + 1) x' y' (by simpa using hx) (by simpa using hy))
      simp only [List.sum_cons]; omega

/-- what one rank receives is a part of what all ranks hold -/
theorem recvd_sum (maps : List Map) (r : Nat) (f : Nat → Nat → Nat) :
    ((recvd maps r).map (fun x => f x.1 x.2)).sum ≤
      (maps.zipIdx.map (fun x => ((List.range x.1.ghostIndex.length).map (fun j => f x.2 j)).sum)).sum := by
  rw [recvd, List.map_flatten, List.map_map]
  have h := sublist_sum (flatten_sublist
    (maps.zipIdx.map (fun x => ((segment (List.range x.1.ghostIndex.length) x.1.ghostStart r).map (fun j => f x.2 j))))
    (maps.zipIdx.map (fun x => ((List.range x.1.ghostIndex.length).map (fun j => f x.2 j)))) (by simp) (by
      intro i a b ha hb
      rw [List.getElem?_map] at ha hb
      cases hx : maps.zipIdx[i]? with
      | none => rw [hx] at ha; cases ha
      | some x =>
        rw [hx] at ha hb
        cases ha; cases hb
        exact (segment_sublist _ _ _).map _))
  rw [sum_flatten_nat (maps.zipIdx.map (fun x => ((List.range x.1.ghostIndex.length).map (fun j => f x.2 j)))), List.map_map] at h
  refine Nat.le_trans (Nat.le_of_eq ?_) h
  congr 2
  apply List.map_congr_left
  intro x _
  simp

/-- the set of one node is no larger than the number of entries -/
theorem refers_length {cells : List (List (List Int))} {q : Int} {s : List Int} (hn : s.Nodup) (h : ∀ c ∈ s, Refers cells c q) :
    s.length ≤ entries cells := by
  have h1 : (s.map (fun c => (q, c))).length ≤
      ((cells.zipIdx.map (fun x => inc (before (cells.map List.length) x.2) 0 x.1)).flatten).length := by
    apply List.Subperm.length_le
    apply List.subperm_of_subset
    · rw [List.nodup_map_iff (fun a b h => by cases h; rfl)]; exact hn
    · intro p hp
      obtain ⟨c, hc, rfl⟩ := List.mem_map.1 hp
      obtain ⟨r, k, row, ⟨rows, a1, a2⟩, a3, a4⟩ := h c hc
      rw [List.mem_flatten]
      refine ⟨_, List.mem_map.2 ⟨(rows, r), List.mem_zipIdx_iff_getElem?.2 a1, rfl⟩, ?_⟩
      rw [inc_mem]
      exact ⟨k, row, a2, a4, by rw [a3]; simp⟩
  rw [List.length_map] at h1
  refine Nat.le_trans h1 (Nat.le_of_eq ?_)
  rw [List.length_flatten, entries, List.map_map]
  congr 1
  apply List.ext_getElem?
  intro i
  rw [List.getElem?_map, List.getElem?_map, List.getElem?_zipIdx]
  cases cells[i]? with
  | none => rfl
  | some rows => simp [inc_length]

theorem part_le_sum {α : Type} (f : α → Nat) (l : List α) (x : α) (h : x ∈ l) : f x ≤ (l.map f).sum := by
  induction l with
  | nil => simp at h
  | cons a l ih =>
    rw [List.map_cons, List.sum_cons]
    rcases List.mem_cons.1 h with rfl | h
    · omega
    · have := ih h; omega

end DNDSR.N2C
