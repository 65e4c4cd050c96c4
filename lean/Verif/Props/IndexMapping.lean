import Verif.Proof.GhostMap2

/-!
# Global offsets and ghost index mappings (C04, C05, C06)

`before`, `Owns`, `Built`, `segment` are in `Verif.Spec.IndexMapping`.
-/

namespace DNDSR.IMap

/-! ## C04 -/

/-- **C04**, existence: every vector of local lengths gives a table, whose global size is the sum. -/
theorem offsets_built (lens : List Nat) :
    ∃ g, Built lens g ∧ g.globalSize = lens.sum := by
  obtain ⟨g, hg⟩ := built_exists lens
  refine ⟨g, hg, ?_⟩
  have h1 := built_offs_length hg
  have h2 := built_offs hg lens.length (Nat.le_refl _)
  simp only [GOM.globalSize, List.getLast?_eq_getElem?, h1, Nat.add_sub_cancel, h2, before, List.take_length]

/-- **C04**, forward: a valid (rank, local index) is mapped to the index of its place in the
concatenation of the blocks. -/
theorem offsets_apply {lens : List Nat} {g : GOM} (hg : Built lens g) (r : Nat) (hr : r < lens.length)
    (v : Int) (h0 : 0 ≤ v) (h1 : v < lens[r]) :
    g.apply r v = .ok (before lens r + v) ∧ Owns lens r (before lens r + v) := by
  refine ⟨?_, hr, by omega, by omega⟩
  rw [apply_eq hg r hr, if_pos (by omega)]

/-- **C04**, search: found at `(r, v)` exactly when `(r, v)` is a valid pair mapped to the query; not
found exactly when the query is outside `[0, total)`; nothing else happens (no abort, no undefined
read). -/
theorem offsets_search {lens : List Nat} {g : GOM} (hg : Built lens g) (q : Int) :
    (∀ r v, g.search q = .ok (some (r, v)) ↔
      ∃ hr : r < lens.length, 0 ≤ v ∧ v < lens[r] ∧ g.apply r v = .ok q) ∧
    (g.search q = .ok none ↔ (q < 0 ∨ (lens.sum : Int) ≤ q)) ∧
    (∃ o, g.search q = .ok o) := by
  refine ⟨?_, ?_, ?_⟩
  · intro r v
    constructor
    · intro h
      rcases search_eq hg q with ⟨s, ho, hs⟩ | ⟨_, hs⟩
      · rw [hs] at h
        cases h
        obtain ⟨hr, a, b⟩ := ho
        refine ⟨hr, by omega, by omega, ?_⟩
        rw [apply_eq hg r hr, if_pos (by omega)]; congr 1; omega
      · rw [hs] at h; cases h
    · rintro ⟨hr, h0, h1, h2⟩
      rw [apply_eq hg r hr, if_pos (by omega)] at h2
      cases h2
      rw [search_of_owns hg (r := r) ⟨hr, by omega, by omega⟩]
      congr 3; omega
  · rcases search_eq hg q with ⟨s, ho, hs⟩ | ⟨h, hs⟩
    · have := owns_range ho
      rw [hs]
      constructor
      · intro h; cases h
      · intro h; omega
    · simp [hs, h]
  · rcases search_eq hg q with ⟨s, ho, hs⟩ | ⟨h, hs⟩ <;> exact ⟨_, hs⟩

/-- **C04**, bijection: every index in `[0, total)` comes from exactly one valid pair. -/
theorem offsets_bijective {lens : List Nat} {g : GOM} (hg : Built lens g) (q : Int) (h0 : 0 ≤ q)
    (h1 : q < lens.sum) :
    (∃ (r : Nat) (v : Int) (hr : r < lens.length), 0 ≤ v ∧ v < lens[r] ∧ g.apply r v = .ok q) ∧
    (∀ (r s : Nat) (v w : Int) (hr : r < lens.length) (hs : s < lens.length),
      0 ≤ v → v < lens[r] → 0 ≤ w → w < lens[s] →
      g.apply r v = .ok q → g.apply s w = .ok q → r = s ∧ v = w) := by
  constructor
  · obtain ⟨h, h2, o, ho⟩ := offsets_search hg q
    match o, ho with
    | none, ho => exact absurd (h2.1 ho) (by omega)
    | some (r, v), ho => exact ⟨r, v, (h r v).1 ho⟩
  · intro r s v w hr hs a b c d e f
    have h := (offsets_search hg q).1
    have h1 := (h r v).2 ⟨hr, a, b, e⟩
    rw [(h s w).2 ⟨hs, c, d, f⟩] at h1
    cases h1; exact ⟨rfl, rfl⟩

-- the example of the source comment: ranks 0, 2, 4, 6 own 1, 2, 1, 1 entries, the others nothing
def demoLens : List Nat := [1, 2, 0, 1, 0, 1, 0]
example : ∃ g, Built demoLens g ∧ g.offs = [0, 1, 3, 3, 4, 4, 5, 5] ∧
    (g.search 5 = .ok none ∧ g.search 4 = .ok (some (5, 0)) ∧ g.search 3 = .ok (some (3, 0)) ∧
     g.search 2 = .ok (some (1, 1)) ∧ g.search (-1) = .ok none) := by
  refine ⟨⟨[1, 2, 0, 1, 0, 1, 0], [0, 1, 3, 3, 4, 4, 5, 5]⟩, by rfl, rfl, ?_, ?_, ?_, ?_, ?_⟩
  all_goals (simp [GOM.search, lowerBound, lowerBoundGo, idx])

/-- The range check of `operator()` is one too wide: the local index equal to the rank's length is
accepted, and silently returns an index the rank does not own (the next rank's first one). -/
theorem offsets_apply_accepts_end (lens : List Nat) (g : GOM) (hg : Built lens g) (r : Nat)
    (hr : r < lens.length) :
    g.apply r lens[r] = .ok (before lens (r + 1)) ∧ ¬ Owns lens r (before lens (r + 1)) := by
  rw [apply_eq hg r hr, if_pos (by omega), before_succ lens r hr]
  refine ⟨by simp, ?_⟩
  rintro ⟨_, _, h⟩
  omega

/-- The rank check is one too wide too: rank = number of ranks passes it and reads past the end. -/
theorem offsets_apply_rank_end (lens : List Nat) (g : GOM) (hg : Built lens g) (v : Int) :
    g.apply lens.length v = .ub := by
  have hlens : g.lens.length = lens.length := by rw [(built_eq hg).1]; simp
  have ho := built_offs_length hg
  simp only [GOM.apply]
  rw [Res.assert_true _ (by omega), Res.ok_bind, Int.toNat_natCast]
  have : idx g.offs (lens.length + 1) = .ub := by
    unfold idx; rw [List.getElem?_eq_none (by omega)]
  rw [this]; rfl

example : ∃ g, Built [3, 4, 5] g ∧ g.apply 0 3 = .ok 3 ∧ g.search 3 = .ok (some (1, 0)) :=
  ⟨⟨[3, 4, 5], [0, 3, 7, 12]⟩, by rfl, by rfl, by simp [GOM.search, lowerBound, lowerBoundGo, idx]⟩

/-! ## C05 -/

/-- The collective construction: it succeeds whenever every requested index exists and every rank's
ghost list and push list has at most `INT_MAX` entries. -/
theorem ghost_map_exists {lens : List Nat} {g : GOM} (hg : Built lens g) (reqs : List (List Int))
    (hn : reqs.length = lens.length) (hr : ∀ req ∈ reqs, ∀ q ∈ req, 0 ≤ q ∧ q < lens.sum)
    (hb : ((reqs.map List.length).sum : Int) ≤ Defines.intMax 32) :
    ∃ maps, createPull g lens reqs = .ok maps := by
  have hu : ∀ req : List Int, (unique (sortIdx req)).length ≤ req.length := by
    intro req
    have h1 : ∀ (l : List Int) (p : Int), (uniqueGo p l).length ≤ l.length := by
      intro l
      induction l with
      | nil => intro p; simp [uniqueGo]
      | cons x xs ih =>
        intro p
        simp only [uniqueGo]
        split
        · have := ih p; simp; omega
        · have := ih x; simp; omega
    have h2 := (sortIdx_perm req).length_eq
    rw [← h2]
    cases sortIdx req with
    | nil => simp [unique]
    | cons x xs => have := h1 xs x; simp [unique]; omega
  have hsum : ∀ (f : List Int → Nat), (∀ req, f req ≤ req.length) → ∀ reqs : List (List Int),
      (reqs.map f).sum ≤ (reqs.map List.length).sum := by
    intro f hf reqs
    induction reqs with
    | nil => simp
    | cons a as ih => have := hf a; simp only [List.map_cons, List.sum_cons]; omega
  apply createPull_total hg reqs hn hr
  · intro req hreq
    have h1 := hu req
    have h2 : req.length ≤ (reqs.map List.length).sum := by
      clear hn hr hb
      induction reqs with
      | nil => simp at hreq
      | cons a as ih =>
        rcases List.mem_cons.1 hreq with rfl | h'
        · simp only [List.map_cons, List.sum_cons]; omega
        · have := ih h'; simp only [List.map_cons, List.sum_cons]; omega
    omega
  · intro r _
    have := hsum (fun req => cnt lens (unique (sortIdx req)) r)
      (fun req => Nat.le_trans List.countP_le_length (hu req)) reqs
    omega

/-- **C05**, the ghost list: the requested indices, each once, in increasing order. -/
theorem ghost_list_spec {lens : List Nat} {g : GOM} (hg : Built lens g) (reqs : List (List Int))
    (hn : reqs.length = lens.length) (maps : List Map) (h : createPull g lens reqs = .ok maps)
    (r : Nat) (m : Map) (req : List Int) (hm : maps[r]? = some m) (hreq : reqs[r]? = some req) :
    m.ghostIndex.Pairwise (· < ·) ∧ (∀ q, q ∈ m.ghostIndex ↔ q ∈ req) ∧
    m.mainOffset = before lens r ∧ lens[r]? = some m.mainSize := by
  have hk := (createPull_spec hg reqs hn maps h).2 r m hm
  have hl := hk.ghost hreq
  exact ⟨hl.sorted, fun q => hl.mem q, hk.off, hk.size⟩

/-- **C05**, lookup: `search_indexAppend` gives the local index of an owned entry, the owned count
plus the position in the ghost list of a requested one (with its owner), and not-found otherwise. -/
theorem ghost_searchAppend_spec {lens : List Nat} {g : GOM} (hg : Built lens g) (reqs : List (List Int))
    (hn : reqs.length = lens.length) (maps : List Map) (h : createPull g lens reqs = .ok maps)
    (r : Nat) (m : Map) (req : List Int) (hm : maps[r]? = some m) (hreq : reqs[r]? = some req) (q : Int) :
    (Owns lens r q → m.searchAppend q = .ok (some (-1, q - before lens r))) ∧
    (∀ (o k : Nat), ¬ Owns lens r q → m.ghostIndex[k]? = some q → Owns lens o q →
      m.searchAppend q = .ok (some (o, m.mainSize + k))) ∧
    (¬ Owns lens r q → q ∉ req → m.searchAppend q = .ok none) := by
  have hk := (createPull_spec hg reqs hn maps h).2 r m hm
  have hl := hk.ghost hreq
  obtain ⟨s1, s2⟩ := searchInAllGhost_spec hl q
  refine ⟨?_, ?_, ?_⟩
  · intro ho
    simp only [Map.searchAppend, hk.main_owned q ho]
  · intro o k ho hkq hoo
    simp only [Map.searchAppend, hk.main_not q ho, s2 k hkq o hoo, Res.ok_bind]
    congr 3; omega
  · intro ho hq
    simp only [Map.searchAppend, hk.main_not q ho, s1 hq, Res.ok_bind]

/-- **C05**, round trip: whatever `search_indexAppend` returns is mapped back to the query by
`operator()(-1, ·)`, and every valid append index is the image of what `operator()` gives for it unless
it is a ghost copy of an entry the rank owns itself. -/
theorem ghost_append_roundtrip {lens : List Nat} {g : GOM} (hg : Built lens g) (reqs : List (List Int))
    (hn : reqs.length = lens.length) (maps : List Map) (h : createPull g lens reqs = .ok maps)
    (r : Nat) (m : Map) (hm : maps[r]? = some m) :
    (∀ q o v, m.searchAppend q = .ok (some (o, v)) → m.apply (-1) v = .ok q) ∧
    (∀ v q, m.apply (-1) v = .ok q → (v < m.mainSize ∨ ¬ Owns lens r q) →
      ∃ o, m.searchAppend q = .ok (some (o, v))) := by
  have hmap := createPull_spec hg reqs hn maps h
  have hk := hmap.2 r m hm
  obtain ⟨req, hreq, hl⟩ := hk.req
  constructor
  · intro q o v hs
    obtain ⟨s1, s2, s3⟩ := ghost_searchAppend_spec hg reqs hn maps h r m req hm hreq q
    by_cases ho : Owns lens r q
    · rw [s1 ho] at hs
      cases hs
      obtain ⟨h1, h2⟩ := (hk.owns_iff q).1 ho
      rw [hk.apply_main, if_pos (by omega), if_pos (by omega)]
      congr 1; omega
    · by_cases hq : q ∈ req
      · have hq' := (hl.mem q).2 hq
        obtain ⟨k, hk', hkq⟩ := List.mem_iff_getElem.1 hq'
        have hk'' : k < m.ghostIndex.length := hk'
        have hkq' : m.ghostIndex[k]? = some q := by
          rw [List.getElem?_eq_getElem hk'']; exact congrArg some hkq
        obtain ⟨h1, h2⟩ := hl.range q hq
        obtain ⟨o', ho'⟩ := owns_exists h1 h2
        rw [s2 o' k ho hkq' ho'] at hs
        cases hs
        rw [hk.apply_main, if_pos (by omega), if_neg (by omega)]
        rw [show ((m.mainSize : Int) + k - m.mainSize).toNat = k by omega, hkq']; rfl
      · rw [s3 ho hq] at hs; cases hs
  · intro v q ha hc
    obtain ⟨s1, s2, s3⟩ := ghost_searchAppend_spec hg reqs hn maps h r m req hm hreq q
    rw [hk.apply_main] at ha
    by_cases hv : 0 ≤ v ∧ v < m.mainSize + m.ghostIndex.length
    · rw [if_pos hv] at ha
      by_cases hv2 : v < m.mainSize
      · rw [if_pos hv2] at ha
        cases ha
        refine ⟨-1, ?_⟩
        rw [s1 ((hk.owns_iff _).2 (by omega))]
        congr 3; omega
      · rw [if_neg hv2] at ha
        have hlt : (v - m.mainSize).toNat < m.ghostIndex.length := by omega
        rw [List.getElem?_eq_getElem hlt] at ha
        have ha' : m.ghostIndex[(v - m.mainSize).toNat] = q := Res.ok.inj ha
        have hq : q ∈ req := (hl.mem q).1 (by rw [← ha']; exact List.getElem_mem hlt)
        obtain ⟨h1, h2⟩ := hl.range q hq
        obtain ⟨o', ho'⟩ := owns_exists h1 h2
        refine ⟨o', ?_⟩
        rw [s2 o' (v - m.mainSize).toNat (by rcases hc with hc | hc; exact absurd hc hv2; exact hc)
          (by rw [List.getElem?_eq_getElem hlt, ha']) ho']
        congr 3; omega
    · rw [if_neg hv] at ha; cases ha

/-- **C05**, the ghost-relative lookups: `search` returns the position in the whole ghost list,
`search_indexRank` the position inside the owner's segment, and `operator()(owner, ·)` inverts the
latter. -/
theorem ghost_searchRank_spec {lens : List Nat} {g : GOM} (hg : Built lens g) (reqs : List (List Int))
    (hn : reqs.length = lens.length) (maps : List Map) (h : createPull g lens reqs = .ok maps)
    (r : Nat) (m : Map) (req : List Int) (hm : maps[r]? = some m) (hreq : reqs[r]? = some req) (q : Int) :
    (Owns lens r q → m.search q = .ok (some (-1, q - before lens r)) ∧
      m.searchRank q = .ok (some (-1, q - before lens r))) ∧
    (∀ (o k : Nat), ¬ Owns lens r q → m.ghostIndex[k]? = some q → Owns lens o q →
      m.search q = .ok (some (o, k)) ∧
      ∃ j : Nat, (segment m.ghostIndex m.ghostStart o)[j]? = some q ∧
        m.searchRank q = .ok (some (o, j)) ∧ m.apply o j = .ok q) ∧
    (¬ Owns lens r q → q ∉ req → m.search q = .ok none ∧ m.searchRank q = .ok none) := by
  have hk := (createPull_spec hg reqs hn maps h).2 r m hm
  have hl := hk.ghost hreq
  obtain ⟨s1, s2⟩ := searchInAllGhost_spec hl q
  refine ⟨?_, ?_, ?_⟩
  · intro ho
    simp only [Map.search, Map.searchRank, hk.main_owned q ho, and_self]
  · intro o k ho hkq hoo
    simp only [Map.search, Map.searchRank, hk.main_not q ho, s2 k hkq o hoo, Res.ok_bind, true_and]
    have hol : o < lens.length := hoo.1
    obtain ⟨b, hb⟩ : ∃ b, m.ghostStart[o]? = some b := ⟨_, hl.start o (by omega)⟩
    obtain ⟨e, he⟩ : ∃ e, m.ghostStart[o + 1]? = some e := ⟨_, hl.start (o + 1) (by omega)⟩
    obtain ⟨h1, h2⟩ := (hl.block o b e k q hol hb he hkq).2 hoo
    have hgl : m.ghostStart.length = lens.length + 1 := hl.start_length
    refine ⟨k - b, ?_, ?_, ?_⟩
    · simp only [segment, hb, he]
      rw [List.getElem?_take, if_pos (by omega), List.getElem?_drop, ← hkq]
      congr 1; omega
    · rw [(idx_ok_iff _ _ _).2 hb, Res.ok_bind]
      congr 3; omega
    · simp only [Map.apply]
      rw [if_neg (by omega), Res.assert_true _ (by omega), Res.ok_bind, Int.toNat_natCast,
        (idx_ok_iff _ _ _).2 he, Res.ok_bind, (idx_ok_iff _ _ _).2 hb, Res.ok_bind,
        Res.assert_true _ (by omega), Res.ok_bind, Int.toNat_natCast, idx_ok_iff,
        show b + (k - b) = k by omega]
      exact hkq
  · intro ho hq
    simp only [Map.search, Map.searchRank, hk.main_not q ho, s1 hq, Res.ok_bind, and_self]

-- three ranks owning 2, 0 and 3 entries; duplicates, an own entry and an empty request
def demoReqs : List (List Int) := [[4, 2, 4], [], [0, 3]]
def demoMaps : List Map :=
  [⟨0, 2, [0, 0, 2], [2, 4], [0, 0, 0, 2], [0, 0, 1], [0, 0, 0, 1], [0]⟩,
   ⟨2, 0, [0, 0, 0], [], [0, 0, 0, 0], [0, 0, 0], [0, 0, 0, 0], []⟩,
   ⟨2, 3, [1, 0, 1], [0, 3], [0, 1, 1, 2], [2, 0, 1], [0, 2, 2, 3], [2, 4, 3]⟩]
def demoG : GOM := ⟨[2, 0, 3], [0, 2, 2, 5]⟩

theorem demo_searches : Built [2, 0, 3] demoG ∧ demoG.search 0 = .ok (some (0, 0)) ∧
    demoG.search 2 = .ok (some (2, 0)) ∧ demoG.search 3 = .ok (some (2, 1)) ∧
    demoG.search 4 = .ok (some (2, 2)) := by
  refine ⟨by rfl, ?_, ?_, ?_, ?_⟩ <;> simp [demoG, GOM.search, lowerBound, lowerBoundGo, idx]

theorem demo_maps : createPull demoG [2, 0, 3] demoReqs = .ok demoMaps := by
  obtain ⟨_, h0, h2, h3, h4⟩ := demo_searches
  have e1 : sortIdx [4, 2, 4] = [2, 4, 4] := by
    simp [sortIdx, List.mergeSort, List.MergeSort.Internal.splitInTwo]
  have e2 : sortIdx [0, 3] = [0, 3] := sortIdx_of_sorted _ (by simp)
  have e3 : sortIdx ([] : List Int) = [] := sortIdx_of_sorted _ (by simp)
  have e4 : sortIdx [2, 4] = [2, 4] := sortIdx_of_sorted _ (by simp)
  have p0 : pullLocal demoG 3 [4, 2, 4] = .ok ⟨[0, 0, 2], [0, 0, 0, 2], [2, 4]⟩ := by
    simp [pullLocal, e1, unique, uniqueGo, countGo, h2, h4, starts, startsGo, fillGo, e4,
      Defines.intMax, Res.assert, List.modify]
  have p1 : pullLocal demoG 3 [] = .ok ⟨[0, 0, 0], [0, 0, 0, 0], []⟩ := by
    simp [pullLocal, e3, unique, countGo, starts, startsGo, fillGo, Defines.intMax, Res.assert]
  have p2 : pullLocal demoG 3 [0, 3] = .ok ⟨[1, 0, 1], [0, 1, 1, 2], [0, 3]⟩ := by
    simp [pullLocal, e2, unique, uniqueGo, countGo, h0, h3, starts, startsGo, fillGo,
      Defines.intMax, Res.assert, List.modify]
  have hl : forRanks (fun _ req => pullLocal demoG demoReqs.length req) 0 demoReqs =
      .ok [⟨[0, 0, 2], [0, 0, 0, 2], [2, 4]⟩, ⟨[0, 0, 0], [0, 0, 0, 0], []⟩,
        ⟨[1, 0, 1], [0, 1, 1, 2], [0, 3]⟩] := by
    simp only [demoReqs, forRanks, List.length_cons, List.length_nil, Nat.zero_add, p0, p1, p2,
      Nat.reduceAdd, Res.ok_bind]
  rw [createPull, hl]
  rfl

-- rank 0 sees global 4 as append index 3 owned by rank 2
example : ∃ m, demoMaps[0]? = some m ∧ m.searchAppend 4 = .ok (some (2, 3)) ∧ m.apply (-1) 3 = .ok 4 := by
  have h := ghost_searchAppend_spec demo_searches.1 demoReqs rfl demoMaps demo_maps 0 _ _ rfl rfl 4
  refine ⟨_, rfl, h.2.1 2 1 ?_ rfl ⟨by decide, by decide, by decide⟩, by rfl⟩
  rintro ⟨_, _, h⟩
  simp [before] at h

/-! ## C06 -/

/-- **C06**. For every ordered pair of ranks, what `r` is told to send to `s` is, entry by entry, the
segment of `s`'s ghost list owned by `r`; the announced message lengths agree; and every entry of it
is found by `r` in its own part. -/
theorem push_pull_agree {lens : List Nat} {g : GOM} (hg : Built lens g) (reqs : List (List Int))
    (hn : reqs.length = lens.length) (maps : List Map) (h : createPull g lens reqs = .ok maps)
    (r s : Nat) (mr ms : Map) (req : List Int) (hr : maps[r]? = some mr) (hs : maps[s]? = some ms)
    (hreq : reqs[s]? = some req) :
    segment mr.pushingIndexGlobal mr.pushIndexStarts s = segment ms.ghostIndex ms.ghostStart r ∧
    mr.pushIndexSizes[s]? = some (segment mr.pushingIndexGlobal mr.pushIndexStarts s).length ∧
    ms.ghostSizes[r]? = some (segment ms.ghostIndex ms.ghostStart r).length ∧
    (∀ q, q ∈ segment mr.pushingIndexGlobal mr.pushIndexStarts s ↔ q ∈ req ∧ Owns lens r q) ∧
    (∀ q, q ∈ segment mr.pushingIndexGlobal mr.pushIndexStarts s →
      mr.search q = .ok (some (-1, q - before lens r))) := by
  have hmap := createPull_spec hg reqs hn maps h
  obtain ⟨h1, h2⟩ := MapOk.push_segment hmap.2 hr hs
  have hk := hmap.2 r mr hr
  have hl := (hmap.2 s ms hs).ghost hreq
  have hc : ms.ghostSizes[r]? = _ := hl.size r hk.rank
  have hlen := hl.segment_length r hk.rank
  rw [hc, Option.getD_some] at hlen
  refine ⟨h1, by rw [h2, h1, hc, hlen], by rw [hc, hlen], ?_, ?_⟩
  · intro q; rw [h1]; exact hl.segment_get r hk.rank q
  · intro q hq
    rw [h1, hl.segment_get r hk.rank q] at hq
    simp only [Map.search, hk.main_owned q hq.2]

example : segment (demoMaps[2]'(by decide)).pushingIndexGlobal (demoMaps[2]'(by decide)).pushIndexStarts 0
    = [2, 4] := by rfl

/-- **C06** for mappings built from push lists (`starts[0] = 0`): the receiver's ghost segment is the
sender's list for it, translated to global indices, and the lengths agree. -/
theorem push_constructed_agree {lens : List Nat} {g : GOM} (hg : Built lens g)
    (push : List (List Int × List Nat)) (hn : push.length = lens.length)
    (hz : ∀ p ∈ push, p.2[0]? = some 0) (maps : List Map) (h : createPush g lens push = .ok maps)
    (r s : Nat) (mr ms : Map) (p : List Int × List Nat) (hr : maps[r]? = some mr) (hs : maps[s]? = some ms)
    (hp : push[r]? = some p) :
    segment ms.ghostIndex ms.ghostStart r = (segment p.1 p.2 s).map (fun l => (before lens r : Int) + l) ∧
    segment mr.pushingIndexGlobal mr.pushIndexStarts s = segment ms.ghostIndex ms.ghostStart r ∧
    mr.pushIndexSizes[s]? = some (segment p.1 p.2 s).length ∧
    ms.ghostSizes[r]? = some (segment p.1 p.2 s).length := by
  obtain ⟨hlen, hall⟩ := createPush_spec hg push hn hz maps h
  have hsl : s < maps.length := (List.getElem?_eq_some_iff.1 hs).1
  have hrl : r < maps.length := (List.getElem?_eq_some_iff.1 hr).1
  obtain ⟨a1, a2, a3, a4, a5, a6, a7, a8, a9, a10⟩ := hall r mr p hr hp
  obtain ⟨ps, hps⟩ : ∃ ps, push[s]? = some ps := ⟨push[s]'(by omega), by simp⟩
  obtain ⟨b1, b2, b3, b4, b5, b6, b7, b8, b9, b10⟩ := hall s ms ps hs hps
  obtain ⟨b, e, c1, c2, c3, c4, c5⟩ := a7 s (by omega)
  have hseg : segment mr.pushingIndexGlobal mr.pushIndexStarts s =
      (segment p.1 p.2 s).map (fun l => (before lens r : Int) + l) := by
    rw [a5, a3]
    simp only [segment, c1, c2, List.map_take, List.map_drop]
  have hsegl : (segment p.1 p.2 s).length = e - b := by
    simp only [segment, c1, c2, List.length_take, List.length_drop]; omega
  have hgs : ms.ghostSizes =
      (maps.map (fun m => segment m.pushingIndexGlobal m.pushIndexStarts s)).map List.length := by
    rw [b8, List.map_map]
    apply List.map_congr_left
    intro m hm
    obtain ⟨t, ht, rfl⟩ := List.mem_iff_getElem.1 hm
    obtain ⟨d1, d2, d3, d4, d5, d6, d7, _⟩ := hall t maps[t] (push[t]'(by omega)) (by simp [ht]) (by simp)
    obtain ⟨b, e, c1, c2, c3, c4, c5⟩ := d7 s (by omega)
    rw [Function.comp_apply, d5, d3]
    simp only [segment, c1, c2, c5, Option.getD_some, List.length_take, List.length_drop, List.length_map]
    omega
  have hmain : segment ms.ghostIndex ms.ghostStart r =
      segment mr.pushingIndexGlobal mr.pushIndexStarts s := by
    rw [b10, b9, hgs, segment_flatten _ _ (by simpa using hrl)]
    simp [(List.getElem?_eq_some_iff.1 hr).2]
  refine ⟨by rw [hmain, hseg], hmain.symm, by rw [c5, hsegl], ?_⟩
  rw [b8, List.getElem?_map, hr, hsegl]
  simp [c5]

-- rank 0 pushes its entries 1, 0 (in this order) to rank 1; rank 1 nothing
def demoPush : List (List Int × List Nat) := [([1, 0], [0, 0, 2]), ([], [0, 0, 0])]
def demoPushMaps : List Map :=
  [⟨0, 2, [0, 0], [], [0, 0, 0], [0, 2], [0, 0, 2], [1, 0]⟩,
   ⟨2, 1, [2, 0], [1, 0], [0, 2, 2], [0, 0], [0, 0, 0], []⟩]
theorem demo_push : Built [2, 1] ⟨[2, 1], [0, 2, 3]⟩ ∧
    createPush ⟨[2, 1], [0, 2, 3]⟩ [2, 1] demoPush = .ok demoPushMaps := by
  exact ⟨by rfl, by rfl⟩

/-- A mapping built from push lists keeps the sender's order, but the lookup is a binary search: in
the example a ghost entry that is present is not found. -/
theorem push_constructed_lookup_misses :
    ∃ m, demoPushMaps[1]? = some m ∧ (0 : Int) ∈ m.ghostIndex ∧ m.apply (-1) 2 = .ok 0 ∧
      m.searchAppend 0 = .ok none := by
  refine ⟨_, rfl, by simp, by rfl, ?_⟩
  simp [Map.searchAppend, Map.searchInMain, Map.searchInAllGhost, lowerBound, lowerBoundGo, idx]

end DNDSR.IMap
