import Verif.Proof.IndexMapping

namespace DNDSR.IMap

/-! ### concatenated blocks -/

theorem take_succ_flatten_len {α : Type} (L : List (List α)) (k : Nat) (h : k < L.length) :
    (L.take (k + 1)).flatten.length = (L.take k).flatten.length + L[k].length := by
  rw [List.take_succ_eq_append_getElem h, List.flatten_append]; simp

theorem flatten_block {α : Type} (L : List (List α)) (k : Nat) (h : k < L.length) :
    (L.flatten.drop (L.take k).flatten.length).take L[k].length = L[k] := by
  conv => lhs; arg 2; arg 2; rw [← List.take_append_drop k L, List.flatten_append]
  rw [List.drop_left' rfl, List.drop_eq_getElem_cons h, List.flatten_cons, List.take_left' rfl]

theorem flatten_take_len_le {α : Type} (L : List (List α)) (k : Nat) :
    (L.take k).flatten.length ≤ L.flatten.length := by
  conv => rhs; rw [← List.take_append_drop k L, List.flatten_append, List.length_append]
  omega

/-- the block one sender contributes -/
def sentBlock {α : Type} (r : Nat) (x : List α × List Nat × List Nat) : List α :=
  (x.1.drop (x.2.2[r]?.getD 0)).take (x.2.1[r]?.getD 0)

theorem recvBlocks_spec {α : Type} (r : Nat) : ∀ (senders : List (List α × List Nat × List Nat))
    (rc rd : List Nat) (pos : Nat), rc.length = senders.length → rc.length ≤ rd.length →
    (∀ (s : Nat) (x : List α × List Nat × List Nat), senders[s]? = some x →
      ∃ c d, x.2.1[r]? = some c ∧ rc[s]? = some c ∧ x.2.2[r]? = some d ∧ d + c ≤ x.1.length) →
    (∀ s, s < rc.length → rd[s]? = some (pos + (rc.take s).sum)) →
    recvBlocks r senders rc rd pos = .ok ((senders.map (sentBlock r)).flatten) := by
  intro senders
  induction senders with
  | nil => intro rc rd pos _ _ _ _; simp [recvBlocks]
  | cons x xs ih =>
    intro rc rd pos hl hl2 hb hd
    obtain ⟨buf, counts, displs⟩ := x
    cases rc with
    | nil => simp at hl
    | cons c rc =>
      cases rd with
      | nil => simp at hl2
      | cons d rd =>
        obtain ⟨c', sd, h1, h2, h3, h4⟩ := hb 0 _ rfl
        simp only [List.getElem?_cons_zero, Option.some.injEq] at h2
        subst h2
        have hd0 := hd 0 (by simp)
        simp only [List.getElem?_cons_zero, Option.some.injEq, List.take_zero, List.sum_nil,
          Nat.add_zero] at hd0
        subst hd0
        have hrec := ih rc rd (d + c) (by simpa using hl) (by simpa using hl2)
          (fun s x hx => hb (s + 1) x (by simpa using hx))
          (fun s hs => by
            have := hd (s + 1) (by simpa using hs)
            simp only [List.getElem?_cons_succ, List.take_succ_cons, List.sum_cons] at this
            rw [this]; congr 1; omega)
        simp only [recvBlocks]
        rw [(idx_ok_iff _ _ _).2 h1, Res.ok_bind, (idx_ok_iff _ _ _).2 h3, Res.ok_bind]
        rw [if_neg (by simp), block, if_pos h4, Res.ok_bind, hrec, Res.ok_bind]
        simp only [List.map_cons, List.flatten_cons, sentBlock, h1, h3, Option.getD_some]

/-! ### the mapping of every rank -/

/-- the local part of a mapping -/
def Map.loc (m : Map) : PullLocal := ⟨m.ghostSizes, m.ghostStart, m.ghostIndex⟩

structure MapOk (lens : List Nat) (reqs : List (List Int)) (maps : List Map) (r : Nat) (m : Map) : Prop where
  req : ∃ q, reqs[r]? = some q ∧ LocalOk lens q m.loc
  rank : r < lens.length
  off : m.mainOffset = before lens r
  size : lens[r]? = some m.mainSize
  pushSizes : m.pushIndexSizes = maps.map (fun ms => ms.ghostSizes[r]?.getD 0)
  pushStarts : m.pushIndexStarts = plainStarts m.pushIndexSizes
  pushGlobal : m.pushingIndexGlobal = (maps.map (fun ms => segment ms.ghostIndex ms.ghostStart r)).flatten

theorem createPull_spec {lens : List Nat} {g : GOM} (hg : Built lens g) (reqs : List (List Int))
    (hn : reqs.length = lens.length) (maps : List Map) (h : createPull g lens reqs = .ok maps) :
    maps.length = lens.length ∧ ∀ (r : Nat) (m : Map), maps[r]? = some m → MapOk lens reqs maps r m := by
  simp only [createPull, Res.bind_ok_iff] at h
  obtain ⟨locals, hloc, h⟩ := h
  obtain ⟨hl1, hl2⟩ := (forRanks_ok _ _ _ _).1 hloc
  obtain ⟨hm1, hm2⟩ := (forRanks_ok _ _ _ _).1 h
  have hlen : maps.length = lens.length := by rw [hm1, List.length_zip]; omega
  -- every local part
  have hL : ∀ (r : Nat) (p : PullLocal), locals[r]? = some p →
      ∃ q, reqs[r]? = some q ∧ LocalOk lens q p := by
    intro r p hp
    have hr : r < reqs.length := by
      have := (List.getElem?_eq_some_iff.1 hp).1; omega
    obtain ⟨y, hy1, hy2⟩ := hl2 r reqs[r] (by simp [hr])
    rw [hp] at hy1; cases hy1
    rw [hn] at hy2
    exact ⟨reqs[r], by simp [hr], (pullLocal_spec hg _).1 p hy2⟩
  -- maps contain their local parts
  have hM : ∀ (r : Nat) (p : PullLocal), locals[r]? = some p → ∃ m, maps[r]? = some m ∧ m.loc = p ∧
      m.mainOffset = before lens r ∧ lens[r]? = some m.mainSize ∧
      alltoall (locals.map (·.ghostSizes)) r = .ok m.pushIndexSizes ∧
      starts m.pushIndexSizes = .ok m.pushIndexStarts ∧
      recvBlocks r (locals.map (fun p => (p.ghostIndex, p.ghostSizes, p.ghostStart)))
        m.pushIndexSizes m.pushIndexStarts 0 = .ok m.pushingIndexGlobal := by
    intro r p hp
    have hr : r < lens.length := by
      have := (List.getElem?_eq_some_iff.1 hp).1; omega
    obtain ⟨m, hm, hf⟩ := hm2 r (p, lens[r]) (by
      rw [List.getElem?_zip_eq_some]
      exact ⟨hp, by simp [hr]⟩)
    simp only [Nat.zero_add] at hf
    rw [apply_eq hg r hr 0, if_pos (by omega), Res.ok_bind] at hf
    simp only [pullFinish, Res.bind_ok_iff, Res.ok.injEq] at hf
    obtain ⟨ps, hps, pst, hpst, gl, hgl, rfl⟩ := hf
    exact ⟨_, hm, rfl, by simp, by simp [hr], hps, hpst, hgl⟩
  have hmaploc : maps.map Map.loc = locals := by
    apply List.ext_getElem?
    intro k
    by_cases hk : k < locals.length
    · obtain ⟨m, hm, he, _⟩ := hM k locals[k] (by simp [hk])
      rw [List.getElem?_map, hm, List.getElem?_eq_getElem hk, ← he]; rfl
    · rw [List.getElem?_eq_none (by simp; omega), List.getElem?_eq_none (by omega)]
  refine ⟨hlen, ?_⟩
  intro r m hm
  have hr : r < lens.length := by
    have := (List.getElem?_eq_some_iff.1 hm).1; omega
  obtain ⟨m', hm', e1, e2, e3, e4, e5, e6⟩ := hM r (locals[r]'(by omega)) (by simp)
  rw [hm] at hm'; cases hm'
  have hreq := hL r (locals[r]'(by omega)) (by simp)
  rw [← e1] at hreq
  -- sizes received
  obtain ⟨a1, a2⟩ := (forRanks_ok _ _ _ _).1 e4
  have hsz : m.pushIndexSizes = maps.map (fun ms => ms.ghostSizes[r]?.getD 0) := by
    apply List.ext_getElem?
    intro s
    by_cases hs : s < maps.length
    · have hsl : s < locals.length := by omega
      obtain ⟨y, hy1, hy2⟩ := a2 s (locals[s].ghostSizes) (by simp [hsl])
      rw [hy1, List.getElem?_map, List.getElem?_eq_getElem hs]
      have : locals[s].ghostSizes = maps[s].ghostSizes := by
        have : locals[s] = maps[s].loc := by
          have h1 : locals[s]? = (maps.map Map.loc)[s]? := by rw [hmaploc]
          rw [List.getElem?_map, List.getElem?_eq_getElem hs, List.getElem?_eq_getElem hsl] at h1
          simpa using h1
        rw [this]; rfl
      rw [this, idx_ok_iff] at hy2
      simp [hy2]
    · rw [List.getElem?_eq_none (by rw [a1]; simp; omega), List.getElem?_eq_none (by simp; omega)]
  have hst := ((starts_ok_iff _ _).1 e5).2
  refine ⟨hreq, hr, e2, e3, hsz, hst, ?_⟩
  -- received blocks
  have hsend : locals.map (fun p => (p.ghostIndex, p.ghostSizes, p.ghostStart)) =
      maps.map (fun ms => (ms.ghostIndex, ms.ghostSizes, ms.ghostStart)) := by
    rw [← hmaploc, List.map_map]; rfl
  have hok : ∀ (s : Nat) (ms : Map), maps[s]? = some ms → ∃ q, LocalOk lens q ms.loc := by
    intro s ms hms
    have h1 : (maps.map Map.loc)[s]? = some ms.loc := by rw [List.getElem?_map, hms]; rfl
    rw [hmaploc] at h1
    obtain ⟨q, _, hq⟩ := hL s _ h1
    exact ⟨q, hq⟩
  have hb := recvBlocks_spec r (maps.map (fun ms => (ms.ghostIndex, ms.ghostSizes, ms.ghostStart)))
    m.pushIndexSizes m.pushIndexStarts 0 (by rw [hsz]; simp)
    (by rw [hst, plainStarts_length]; omega)
    (by
      intro s x hx
      rw [List.getElem?_map] at hx
      obtain ⟨ms, hms, rfl⟩ := Option.map_eq_some_iff.1 hx
      obtain ⟨q, hq⟩ := hok s ms hms
      have hc := hq.size r hr
      have hd := hq.start r (by omega)
      have he := hq.start (r + 1) (by omega)
      refine ⟨_, _, hc, ?_, hd, ?_⟩
      · rw [hsz, List.getElem?_map, hms]
        have hc' : ms.ghostSizes[r]? = _ := hc
        simp [hc']
      · have := hq.start_succ r _ _ _ hr hd he hc
        show _ ≤ ms.ghostIndex.length
        rw [← this]
        have h2 : ms.loc.ghostIndex = ms.ghostIndex := rfl
        rw [h2]
        exact List.countP_le_length)
    (by
      intro s hs
      rw [hst, plainStarts_get _ _ (by omega), Nat.zero_add])
  rw [hsend, hb] at e6
  rw [← Res.ok.inj e6, List.map_map]
  congr 1
  apply List.map_congr_left
  intro ms hms
  obtain ⟨s, hs, rfl⟩ := List.mem_iff_getElem.1 hms
  obtain ⟨q, hq⟩ := hok s maps[s] (by simp [hs])
  have hc := hq.size r hr
  have hd := hq.start r (by omega)
  have he := hq.start (r + 1) (by omega)
  have hsum := hq.start_succ r _ _ _ hr hd he hc
  have hc' : maps[s].ghostSizes[r]? = _ := hc
  have hd' : maps[s].ghostStart[r]? = _ := hd
  have he' : maps[s].ghostStart[r + 1]? = _ := he
  simp only [Function.comp_apply, sentBlock, segment, hc', hd', he', Option.getD_some]
  congr 1
  rw [hsum]; omega

/-! ### when the construction succeeds -/

theorem createPull_total {lens : List Nat} {g : GOM} (hg : Built lens g) (reqs : List (List Int))
    (hn : reqs.length = lens.length) (hr : ∀ req ∈ reqs, ∀ q ∈ req, 0 ≤ q ∧ q < lens.sum)
    (hb1 : ∀ req ∈ reqs, ((unique (sortIdx req)).length : Int) ≤ Defines.intMax 32)
    (hb2 : ∀ r, r < lens.length →
      ((reqs.map (fun req => cnt lens (unique (sortIdx req)) r)).sum : Int) ≤ Defines.intMax 32) :
    ∃ maps, createPull g lens reqs = .ok maps := by
  have h1 : ∃ locals, forRanks (fun _ req => pullLocal g reqs.length req) 0 reqs = .ok locals := by
    apply forRanks_total
    intro i req hreq
    rw [hn]
    have hm := List.mem_of_getElem? hreq
    exact (pullLocal_spec hg req).2.1 (hr req hm) (hb1 req hm)
  obtain ⟨locals, hloc⟩ := h1
  obtain ⟨hl1, hl2⟩ := (forRanks_ok _ _ _ _).1 hloc
  have hL : ∀ (s : Nat) (p : PullLocal), locals[s]? = some p →
      ∃ q, reqs[s]? = some q ∧ LocalOk lens q p := by
    intro r p hp
    have hr : r < reqs.length := by
      have := (List.getElem?_eq_some_iff.1 hp).1; omega
    obtain ⟨y, hy1, hy2⟩ := hl2 r reqs[r] (by simp [hr])
    rw [hp] at hy1; cases hy1
    rw [hn] at hy2
    exact ⟨reqs[r], by simp [hr], (pullLocal_spec hg _).1 p hy2⟩
  simp only [createPull, hloc, Res.ok_bind]
  apply forRanks_total
  intro r x hx
  obtain ⟨p, l⟩ := x
  rw [List.getElem?_zip_eq_some] at hx
  obtain ⟨hp, hl⟩ := hx
  simp only at hp hl
  have hrl : r < lens.length := (List.getElem?_eq_some_iff.1 hl).1
  simp only [Nat.zero_add]
  rw [apply_eq hg r hrl 0, if_pos (by omega), Res.ok_bind]
  have hall : alltoall (locals.map (·.ghostSizes)) r =
      .ok (reqs.map (fun req => cnt lens (unique (sortIdx req)) r)) := by
    rw [alltoall, forRanks_ok]
    refine ⟨by simp; omega, ?_⟩
    intro s row hrow
    rw [List.getElem?_map] at hrow
    obtain ⟨ps, hps, rfl⟩ := Option.map_eq_some_iff.1 hrow
    obtain ⟨q, hq, hok⟩ := hL s ps hps
    refine ⟨_, by rw [List.getElem?_map, hq]; rfl, ?_⟩
    rw [idx_ok_iff, hok.size r hrl, hok.gi]
  simp only [pullFinish, hall, Res.ok_bind]
  rw [(starts_spec _).1 (hb2 r hrl), Res.ok_bind]
  have hb := recvBlocks_spec r (locals.map (fun p => (p.ghostIndex, p.ghostSizes, p.ghostStart)))
    (reqs.map (fun req => cnt lens (unique (sortIdx req)) r))
    (plainStarts (reqs.map (fun req => cnt lens (unique (sortIdx req)) r))) 0 (by simp; omega)
    (by rw [plainStarts_length]; omega)
    (by
      intro s x hx
      rw [List.getElem?_map] at hx
      obtain ⟨ps, hps, rfl⟩ := Option.map_eq_some_iff.1 hx
      obtain ⟨q, hq, hok⟩ := hL s ps hps
      have hc := hok.size r hrl
      have hd := hok.start r (by omega)
      have he := hok.start (r + 1) (by omega)
      refine ⟨_, _, hc, ?_, hd, ?_⟩
      · rw [List.getElem?_map, hq, hok.gi]; rfl
      · have := hok.start_succ r _ _ _ hrl hd he hc
        show _ ≤ ps.ghostIndex.length
        rw [← this]
        exact List.countP_le_length)
    (by
      intro s hs
      rw [plainStarts_get _ _ (by omega), Nat.zero_add])
  rw [hb, Res.ok_bind]
  exact ⟨_, rfl⟩

/-! ### lookups -/

theorem lowerBound_sorted (l : List Int) (h : l.Pairwise (· < ·)) (q : Int) :
    ∃ k, lowerBound (fun x => decide (x < q)) l 0 l.length = .ok k ∧ k ≤ l.length ∧
      (∀ (i : Nat) (x : Int), i < k → l[i]? = some x → x < q) ∧
      (∀ (i : Nat) (x : Int), k ≤ i → l[i]? = some x → q ≤ x) := by
  obtain ⟨k, h1, _, h2, h3, h4⟩ := lowerBoundGo_spec (fun x => decide (x < q)) l
    (by
      intro i j x y hij hx hy hp
      simp only [decide_eq_true_eq] at hp ⊢
      obtain ⟨hi, rfl⟩ := List.getElem?_eq_some_iff.1 hx
      obtain ⟨hj, rfl⟩ := List.getElem?_eq_some_iff.1 hy
      have := List.pairwise_iff_getElem.1 h i j hi hj hij
      omega)
    l.length 0 (by omega) (by intro i x hi; omega) (by intro i x hi hi'; omega)
  refine ⟨k, by simpa [lowerBound] using h1, by omega, ?_, ?_⟩
  · intro i x hi hx; simpa using h3 i x hi hx
  · intro i x hi hx
    have := h4 i x hi (List.getElem?_eq_some_iff.1 hx).1 hx
    rw [decide_eq_false_iff_not] at this
    omega

theorem pos_unique {l : List Int} (h : l.Pairwise (· < ·)) {i j : Nat} {x : Int}
    (hi : l[i]? = some x) (hj : l[j]? = some x) : i = j := by
  obtain ⟨hi', rfl⟩ := List.getElem?_eq_some_iff.1 hi
  obtain ⟨hj', he⟩ := List.getElem?_eq_some_iff.1 hj
  rcases Nat.lt_trichotomy i j with hlt | heq | hgt
  · have := List.pairwise_iff_getElem.1 h i j hi' hj' hlt; omega
  · exact heq
  · have := List.pairwise_iff_getElem.1 h j i hj' hi' hgt; omega

theorem searchInAllGhost_spec {lens : List Nat} {req : List Int} {m : Map} (h : LocalOk lens req m.loc)
    (q : Int) :
    (q ∉ req → m.searchInAllGhost q = .ok none) ∧
    (∀ k : Nat, m.ghostIndex[k]? = some q → ∀ r, Owns lens r q → m.searchInAllGhost q = .ok (some (r, k))) := by
  have hs : m.ghostIndex.Pairwise (· < ·) := h.sorted
  obtain ⟨k, h1, h2, h3, h4⟩ := lowerBound_sorted m.ghostIndex hs q
  constructor
  · intro hq
    simp only [Map.searchInAllGhost, h1, Res.ok_bind]
    by_cases hk : k = m.ghostIndex.length
    · rw [if_pos hk]
    · rw [if_neg hk]
      have hk' : k < m.ghostIndex.length := by omega
      rw [idx_ok _ _ hk', Res.ok_bind, if_neg]
      intro he
      apply hq
      rw [← h.mem q, ← he]
      exact List.getElem_mem hk'
  · intro k' hk' r ho
    have hkk : k = k' := by
      have hk'l := (List.getElem?_eq_some_iff.1 hk').1
      rcases Nat.lt_trichotomy k k' with hlt | heq | hgt
      · have hkl : k < m.ghostIndex.length := by omega
        have a := h4 k _ (Nat.le_refl _) (List.getElem?_eq_getElem hkl)
        have b := List.pairwise_iff_getElem.1 hs k k' hkl hk'l hlt
        have c := (List.getElem?_eq_some_iff.1 hk').2
        omega
      · exact heq
      · have := h3 k' q hgt hk'; omega
    subst hkk
    have hkl := (List.getElem?_eq_some_iff.1 hk').1
    simp only [Map.searchInAllGhost, h1, Res.ok_bind]
    rw [if_neg (by omega), (idx_ok_iff _ _ _).2 hk', Res.ok_bind, if_pos rfl]
    have hr : r < lens.length := ho.1
    have hsl : m.ghostStart.length = lens.length + 1 := h.start_length
    obtain ⟨b, hb⟩ : ∃ b, m.ghostStart[r]? = some b := ⟨_, h.start r (by omega)⟩
    obtain ⟨e, he⟩ : ∃ e, m.ghostStart[r + 1]? = some e := ⟨_, h.start (r + 1) (by omega)⟩
    obtain ⟨hbk, hke⟩ := (h.block r b e k q hr hb he hk').2 ho
    obtain ⟨s, hs1, _, hs2, hs3, hs4⟩ := lowerBoundGo_spec (fun y => decide (y ≤ k)) m.ghostStart
      (by
        intro i j x y hij hx hy hp
        have := h.start_mono i j x y (by omega) hx hy
        simp only [decide_eq_true_eq] at hp ⊢; omega)
      m.ghostStart.length 0 (by omega) (by intro i x hi; omega) (by intro i x hi hi'; omega)
    have hsr : s = r + 1 := by
      rcases Nat.lt_trichotomy s (r + 1) with hlt | heq | hgt
      · have := hs4 r b (by omega) (by omega) hb
        rw [decide_eq_false_iff_not] at this; omega
      · exact heq
      · have := hs3 (r + 1) e hgt he
        simp only [decide_eq_true_eq] at this; omega
    subst hsr
    simp only [lowerBound, Nat.sub_zero, hs1, Res.ok_bind]
    have : (r + 1 ≠ m.ghostStart.length ∧ r + 1 > 0) := by
      refine ⟨?_, by omega⟩
      intro heq
      omega
    rw [Res.assert_true _ this, Res.ok_bind]
    simp

end DNDSR.IMap
