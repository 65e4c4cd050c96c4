import Verif.Proof.GhostMap

namespace DNDSR.IMap

theorem sum_take_length {α : Type} (L : List (List α)) (k : Nat) :
    ((L.map List.length).take k).sum = (L.take k).flatten.length := by
  rw [← List.map_take, List.length_flatten]

theorem segment_flatten {α : Type} (L : List (List α)) (k : Nat) (h : k < L.length) :
    segment L.flatten (plainStarts (L.map List.length)) k = L[k] := by
  simp only [segment]
  rw [plainStarts_get _ _ (by simp; omega), plainStarts_get _ _ (by simp; omega)]
  simp only [sum_take_length]
  rw [take_succ_flatten_len L k h, Nat.add_sub_cancel_left]
  exact flatten_block L k h

theorem LocalOk.segment_length {lens : List Nat} {req : List Int} {m : Map} (h : LocalOk lens req m.loc)
    (r : Nat) (hr : r < lens.length) :
    (segment m.ghostIndex m.ghostStart r).length = m.ghostSizes[r]?.getD 0 := by
  have hb : m.ghostStart[r]? = _ := h.start r (by omega)
  have he : m.ghostStart[r + 1]? = _ := h.start (r + 1) (by omega)
  have hc : m.ghostSizes[r]? = _ := h.size r hr
  have hs := h.start_succ r _ _ _ hr hb he hc
  have hle : List.countP (fun q => decide (q < (before lens (r + 1) : Int))) m.loc.ghostIndex ≤
      m.ghostIndex.length := List.countP_le_length
  simp only [segment, hb, he, hc, Option.getD_some, List.length_take, List.length_drop]
  omega

theorem LocalOk.segment_get {lens : List Nat} {req : List Int} {m : Map} (h : LocalOk lens req m.loc)
    (r : Nat) (hr : r < lens.length) (q : Int) :
    q ∈ segment m.ghostIndex m.ghostStart r ↔ q ∈ req ∧ Owns lens r q := by
  have hb : m.ghostStart[r]? = _ := h.start r (by omega)
  have he : m.ghostStart[r + 1]? = _ := h.start (r + 1) (by omega)
  have hle : List.countP (fun q => decide (q < (before lens (r + 1) : Int))) m.loc.ghostIndex ≤
      m.ghostIndex.length := List.countP_le_length
  simp only [segment, hb, he]
  have hblk := fun k x hx => h.block r _ _ k x hr hb he hx
  rw [← h.mem q]
  constructor
  · intro hq
    obtain ⟨i, hi, rfl⟩ := List.mem_iff_getElem.1 hq
    simp only [List.length_take, List.length_drop] at hi
    rw [List.getElem_take, List.getElem_drop]
    refine ⟨List.getElem_mem _, (hblk _ _ (List.getElem?_eq_getElem _)).1 ?_⟩
    omega
  · rintro ⟨hq, ho⟩
    obtain ⟨i, hi, rfl⟩ := List.mem_iff_getElem.1 hq
    obtain ⟨h1, h2⟩ := (hblk i _ (List.getElem?_eq_getElem hi)).2 ho
    have hi' : i < m.ghostIndex.length := hi
    rw [List.mem_iff_getElem]
    refine ⟨i - List.countP (fun q => decide (q < (before lens r : Int))) m.loc.ghostIndex, ?_, ?_⟩
    · simp only [List.length_take, List.length_drop]; omega
    · rw [List.getElem_take, List.getElem_drop]
      congr 1; omega

theorem MapOk.push_segment {lens : List Nat} {reqs : List (List Int)} {maps : List Map}
    (hall : ∀ (r : Nat) (m : Map), maps[r]? = some m → MapOk lens reqs maps r m)
    {r s : Nat} {mr ms : Map} (hr : maps[r]? = some mr) (hs : maps[s]? = some ms) :
    segment mr.pushingIndexGlobal mr.pushIndexStarts s = segment ms.ghostIndex ms.ghostStart r ∧
    mr.pushIndexSizes[s]? = ms.ghostSizes[r]? := by
  have h := hall r mr hr
  have hsl := (List.getElem?_eq_some_iff.1 hs).1
  have hse := (List.getElem?_eq_some_iff.1 hs).2
  constructor
  · have hlen : mr.pushIndexSizes =
        (maps.map (fun ms => segment ms.ghostIndex ms.ghostStart r)).map List.length := by
      rw [h.pushSizes, List.map_map]
      apply List.map_congr_left
      intro m hm
      obtain ⟨t, ht, rfl⟩ := List.mem_iff_getElem.1 hm
      obtain ⟨q, _, hq⟩ := (hall t maps[t] (by simp [ht])).req
      rw [Function.comp_apply, hq.segment_length r h.rank]
    rw [h.pushStarts, h.pushGlobal, hlen, segment_flatten _ _ (by simpa using hsl)]
    simp [hse]
  · obtain ⟨q, _, hq⟩ := (hall s ms hs).req
    have hc : ms.ghostSizes[r]? = _ := hq.size r h.rank
    rw [h.pushSizes, List.getElem?_map, hs, hc]
    simp [hc]

/-! ### searches -/

theorem MapOk.searchInMain {lens : List Nat} {reqs : List (List Int)} {maps : List Map} {r : Nat} {m : Map}
    (h : MapOk lens reqs maps r m) (q : Int) :
    m.searchInMain q = if (before lens r : Int) ≤ q ∧ q < before lens r + m.mainSize
      then some (q - before lens r) else none := by
  simp only [Map.searchInMain, h.off]
  by_cases hc : (before lens r : Int) ≤ q ∧ q < before lens r + m.mainSize
  · rw [if_pos hc, if_pos (by omega)]
  · rw [if_neg hc, if_neg (by omega)]

theorem MapOk.owns_iff {lens : List Nat} {reqs : List (List Int)} {maps : List Map} {r : Nat} {m : Map}
    (h : MapOk lens reqs maps r m) (q : Int) :
    Owns lens r q ↔ (before lens r : Int) ≤ q ∧ q < before lens r + m.mainSize := by
  have := List.getElem?_eq_some_iff.1 h.size
  obtain ⟨h1, h2⟩ := this
  constructor
  · rintro ⟨_, a, b⟩; rw [h2] at b; exact ⟨a, b⟩
  · rintro ⟨a, b⟩; exact ⟨h1, a, by rw [h2]; exact b⟩

theorem MapOk.main_owned {lens : List Nat} {reqs : List (List Int)} {maps : List Map} {r : Nat} {m : Map}
    (h : MapOk lens reqs maps r m) (q : Int) (ho : Owns lens r q) :
    m.searchInMain q = some (q - before lens r) := by
  rw [h.searchInMain, if_pos ((h.owns_iff q).1 ho)]

theorem MapOk.main_not {lens : List Nat} {reqs : List (List Int)} {maps : List Map} {r : Nat} {m : Map}
    (h : MapOk lens reqs maps r m) (q : Int) (ho : ¬ Owns lens r q) : m.searchInMain q = none := by
  rw [h.searchInMain, if_neg (fun hc => ho ((h.owns_iff q).2 hc))]

theorem MapOk.ghost {lens : List Nat} {reqs : List (List Int)} {maps : List Map} {r : Nat} {m : Map}
    (h : MapOk lens reqs maps r m) {req : List Int} (hreq : reqs[r]? = some req) : LocalOk lens req m.loc := by
  obtain ⟨q, h1, h2⟩ := h.req
  rw [hreq] at h1; cases h1; exact h2

theorem MapOk.apply_main {lens : List Nat} {reqs : List (List Int)} {maps : List Map} {r : Nat} {m : Map}
    (h : MapOk lens reqs maps r m) (v : Int) :
    m.apply (-1) v = if 0 ≤ v ∧ v < m.mainSize + m.ghostIndex.length then
      .ok (if v < m.mainSize then before lens r + v else m.ghostIndex[(v - m.mainSize).toNat]?.getD 0)
      else .abort := by
  obtain ⟨req, _, hl⟩ := h.req
  have hlast : m.ghostStart.getLast? = some m.ghostIndex.length := by
    have h1 : m.ghostStart[lens.length]? = some m.ghostIndex.length := hl.start_last
    have h2 : m.ghostStart.length = lens.length + 1 := hl.start_length
    rw [List.getLast?_eq_getElem?, h2]; exact h1
  simp only [Map.apply, if_true, hlast]
  by_cases h0 : 0 ≤ v
  · rw [Res.assert_true _ h0, Res.ok_bind]
    by_cases h1 : v < m.mainSize
    · rw [if_pos h1, if_pos (by omega), if_pos h1, h.off, Int.add_comm]
    · rw [if_neg h1]
      by_cases h2 : v < m.mainSize + m.ghostIndex.length
      · rw [Res.assert_true _ (by omega), Res.ok_bind, if_pos (by omega), if_neg h1]
        rw [List.getElem?_eq_getElem (by omega)]; rfl
      · rw [if_neg (by omega)]
        simp only [Res.assert]
        rw [if_neg (by omega)]; rfl
  · have hc : ¬ (0 ≤ v ∧ v < m.mainSize + m.ghostIndex.length) := by omega
    rw [if_neg hc]
    simp only [Res.assert]
    rw [if_neg h0]; rfl

/-! ### the push constructor -/

theorem createPush_spec {lens : List Nat} {g : GOM} (hg : Built lens g) (push : List (List Int × List Nat))
    (hn : push.length = lens.length) (hz : ∀ p ∈ push, p.2[0]? = some 0) (maps : List Map)
    (h : createPush g lens push = .ok maps) :
    maps.length = lens.length ∧ ∀ (r : Nat) (m : Map) (p : List Int × List Nat), maps[r]? = some m →
      push[r]? = some p →
      m.mainOffset = before lens r ∧ lens[r]? = some m.mainSize ∧
      m.pushIndexStarts = p.2 ∧ m.pushIndexStarts.length = lens.length + 1 ∧
      m.pushingIndexGlobal = p.1.map (fun l => (before lens r : Int) + l) ∧
      m.pushIndexSizes.length = lens.length ∧
      (∀ s, s < lens.length → ∃ b e, p.2[s]? = some b ∧ p.2[s + 1]? = some e ∧ b ≤ e ∧ e ≤ p.1.length ∧
        m.pushIndexSizes[s]? = some (e - b)) ∧
      m.ghostSizes = maps.map (fun ms => ms.pushIndexSizes[r]?.getD 0) ∧
      m.ghostStart = plainStarts m.ghostSizes ∧
      m.ghostIndex = (maps.map (fun ms => segment ms.pushingIndexGlobal ms.pushIndexStarts r)).flatten := by
  simp only [createPush, Res.bind_ok_iff] at h
  obtain ⟨locals, hloc, h⟩ := h
  obtain ⟨hl1, hl2⟩ := (forRanks_ok _ _ _ _).1 hloc
  obtain ⟨hm1, hm2⟩ := (forRanks_ok _ _ _ _).1 h
  have hlen : maps.length = lens.length := by rw [hm1, List.length_zip, List.length_zip]; omega
  -- local part
  have hL : ∀ (r : Nat) (p : List Int × List Nat), push[r]? = some p → ∃ l, locals[r]? = some l ∧
      p.2.length = lens.length + 1 ∧ l.1.length = lens.length ∧
      (∀ s, s < lens.length → ∃ b e, p.2[s]? = some b ∧ p.2[s + 1]? = some e ∧ b ≤ e ∧
        e ≤ p.1.length ∧ l.1[s]? = some (e - b)) ∧
      l.2 = p.1.map (fun x => (before lens r : Int) + x) := by
    intro r p hp
    obtain ⟨l, hl, hf⟩ := hl2 r p hp
    have hr : r < lens.length := by rw [← hn]; exact (List.getElem?_eq_some_iff.1 hp).1
    simp only [pushLocal, Nat.zero_add, Res.bind_ok_iff, Res.assert_ok_iff, Res.ok.injEq] at hf
    obtain ⟨_, h1, last, h2, _, h3, sizes, h4, glob, h5, rfl⟩ := hf
    rw [idx_ok_iff] at h2
    obtain ⟨s1, s2⟩ := (forRanks_ok _ _ _ _).1 h4
    obtain ⟨g1, g2⟩ := (forRanks_ok _ _ _ _).1 h5
    rw [hn] at h1 h2
    have hsz : sizes.length = lens.length := by
      rw [s1, List.length_zip, List.length_tail, h1]; omega
    have hstep : ∀ s, s < lens.length → ∃ b e, p.2[s]? = some b ∧ p.2[s + 1]? = some e ∧ b ≤ e ∧
        sizes[s]? = some (e - b) := by
      intro s hs
      have hb : p.2[s]? = some (p.2[s]'(by omega)) := List.getElem?_eq_getElem _
      have he : p.2[s + 1]? = some (p.2[s + 1]'(by omega)) := List.getElem?_eq_getElem _
      obtain ⟨y, hy, hf⟩ := s2 s (p.2[s]'(by omega), p.2[s + 1]'(by omega)) (by
        rw [List.getElem?_zip_eq_some]
        exact ⟨hb, by simp⟩)
      simp only at hf
      by_cases hc : p.2[s]'(by omega) ≤ p.2[s + 1]'(by omega)
      · rw [if_pos hc] at hf; cases hf
        exact ⟨_, _, hb, he, hc, hy⟩
      · rw [if_neg hc] at hf; cases hf
    have hmono : ∀ d s e', s + d = lens.length → p.2[s]? = some e' → e' ≤ last := by
      intro d
      induction d with
      | zero =>
        intro s e' hs he'
        have : s = lens.length := by omega
        subst this
        rw [h2] at he'; cases he'; omega
      | succ d ih =>
        intro s e' hs he'
        obtain ⟨b, e, hb, he, hle, _⟩ := hstep s (by omega)
        rw [hb] at he'; cases he'
        have := ih (s + 1) e (by omega) he
        omega
    refine ⟨_, hl, h1, hsz, ?_, ?_⟩
    · intro s hs
      obtain ⟨b, e, hb, he, hle, hv⟩ := hstep s hs
      refine ⟨b, e, hb, he, hle, ?_, hv⟩
      have := hmono (lens.length - (s + 1)) (s + 1) e (by omega) he
      omega
    · apply List.ext_getElem?
      intro i
      by_cases hi : i < p.1.length
      · obtain ⟨y, hy, hf⟩ := g2 i p.1[i] (by simp [hi])
        rw [apply_eq hg r hr] at hf
        by_cases hc : 0 ≤ p.1[i] ∧ p.1[i] ≤ lens[r]
        · rw [if_pos hc] at hf; cases hf
          simp [hy, hi]
        · rw [if_neg hc] at hf; cases hf
      · rw [List.getElem?_eq_none (by show glob.length ≤ i; omega), List.getElem?_eq_none (by simp; omega)]
  have hpst : ∀ (r : Nat) (p : List Int × List Nat), push[r]? = some p → (0 :: p.2.tail) = p.2 := by
    intro r p hp
    have := hz p (List.mem_of_getElem? hp)
    cases hp2 : p.2 with
    | nil => rw [hp2] at this; simp at this
    | cons a as => rw [hp2] at this; simp at this; simp [this]
  have hM : ∀ (r : Nat) (p : List Int × List Nat) (l : List Nat × List Int), push[r]? = some p →
      locals[r]? = some l → ∃ m, maps[r]? = some m ∧ m.mainOffset = before lens r ∧
      lens[r]? = some m.mainSize ∧ m.pushIndexStarts = p.2 ∧ m.pushIndexSizes = l.1 ∧
      m.pushingIndexGlobal = l.2 ∧ alltoall (locals.map (·.1)) r = .ok m.ghostSizes ∧
      m.ghostStart = plainStarts m.ghostSizes ∧
      recvBlocks r ((locals.zip push).map (fun x => (x.1.2, x.1.1, (0 :: x.2.2.tail))))
        m.ghostSizes m.ghostStart 0 = .ok m.ghostIndex := by
    intro r p l hp hl
    have hr : r < lens.length := by rw [← hn]; exact (List.getElem?_eq_some_iff.1 hp).1
    obtain ⟨m, hm, hf⟩ := hm2 r ((l, p), lens[r]) (by
      rw [List.getElem?_zip_eq_some]
      refine ⟨?_, by simp [hr]⟩
      show (locals.zip push)[r]? = some (l, p)
      rw [List.getElem?_zip_eq_some]
      exact ⟨hl, hp⟩)
    simp only [Nat.zero_add] at hf
    rw [apply_eq hg r hr 0, if_pos (by omega), Res.ok_bind] at hf
    simp only [Res.bind_ok_iff, Res.ok.injEq] at hf
    obtain ⟨gs, hgs, gi, hgi, rfl⟩ := hf
    exact ⟨_, hm, by simp, by simp [hr], hpst r p hp, rfl, rfl, hgs, rfl, hgi⟩
  refine ⟨hlen, ?_⟩
  intro r m p hm hp
  have hr : r < lens.length := by rw [← hn]; exact (List.getElem?_eq_some_iff.1 hp).1
  obtain ⟨l, hl, a1, a2, a3, a4⟩ := hL r p hp
  obtain ⟨m', hm', b1, b2, b3, b4, b5, b6, b7, b8⟩ := hM r p l hp hl
  rw [hm] at hm'; cases hm'
  have hll : locals.length = maps.length := by omega
  -- per sender
  have hS : ∀ (s : Nat) (ms : Map), maps[s]? = some ms → ∃ ps ls, push[s]? = some ps ∧
      locals[s]? = some ls ∧ ms.pushIndexStarts = ps.2 ∧ ms.pushIndexSizes = ls.1 ∧
      ms.pushingIndexGlobal = ls.2 ∧ ls.2.length = ps.1.length ∧
      ∃ b e, ps.2[r]? = some b ∧ ps.2[r + 1]? = some e ∧ b ≤ e ∧ e ≤ ps.1.length ∧ ls.1[r]? = some (e - b) := by
    intro s ms hms
    have hs : s < push.length := by
      have := (List.getElem?_eq_some_iff.1 hms).1; omega
    obtain ⟨ls, hls, c1, c2, c3, c4⟩ := hL s push[s] (by simp [hs])
    obtain ⟨ms', hms', d1, d2, d3, d4, d5, _⟩ := hM s push[s] ls (by simp [hs]) hls
    rw [hms] at hms'; cases hms'
    exact ⟨_, ls, by simp [hs], hls, d3, d4, d5, by rw [c4]; simp, c3 r hr⟩
  obtain ⟨t1, t2⟩ := (forRanks_ok _ _ _ _).1 b6
  have hgs : m.ghostSizes = maps.map (fun ms => ms.pushIndexSizes[r]?.getD 0) := by
    apply List.ext_getElem?
    intro s
    by_cases hs : s < maps.length
    · obtain ⟨ps, ls, e1, e2, e3, e4, e5, e6, bb, ee, e7, e8, e9, e10, e11⟩ := hS s maps[s] (by simp [hs])
      obtain ⟨y, hy1, hy2⟩ := t2 s ls.1 (by rw [List.getElem?_map, e2]; rfl)
      rw [idx_ok_iff, e11] at hy2
      rw [hy1, List.getElem?_map, List.getElem?_eq_getElem hs]
      simp [e4, e11, ← Option.some.inj hy2]
    · rw [List.getElem?_eq_none (by rw [t1]; simp; omega), List.getElem?_eq_none (by simp; omega)]
  refine ⟨b1, b2, b3, by rw [b3, a1], by rw [b5, a4], by rw [b4, a2], ?_, hgs, b7, ?_⟩
  · intro s hs
    obtain ⟨b, e, h1, h2, h3, h4, h5⟩ := a3 s hs
    exact ⟨b, e, h1, h2, h3, h4, by rw [b4]; exact h5⟩
  · have hb := recvBlocks_spec r ((locals.zip push).map (fun x => (x.1.2, x.1.1, (0 :: x.2.2.tail))))
      m.ghostSizes m.ghostStart 0 (by rw [hgs]; simp; omega)
      (by rw [b7, plainStarts_length]; omega)
      (by
        intro s x hx
        rw [List.getElem?_map] at hx
        obtain ⟨⟨ls, ps⟩, hz', rfl⟩ := Option.map_eq_some_iff.1 hx
        rw [List.getElem?_zip_eq_some] at hz'
        obtain ⟨hz1, hz2⟩ := hz'
        simp only at hz1 hz2
        have hs : s < maps.length := by
          have := (List.getElem?_eq_some_iff.1 hz1).1; omega
        obtain ⟨ps', ls', e1, e2, e3, e4, e5, e6, bb, ee, e7, e8, e9, e10, e11⟩ := hS s maps[s] (by simp [hs])
        rw [hz1] at e2; cases e2
        rw [hz2] at e1; cases e1
        refine ⟨ee - bb, bb, e11, ?_, ?_, ?_⟩
        · rw [hgs, List.getElem?_map, List.getElem?_eq_getElem hs]; simp [e4, e11]
        · show (0 :: ps.2.tail)[r]? = _
          rw [hpst s ps hz2]; exact e7
        · show bb + (ee - bb) ≤ ls.2.length
          omega)
      (by
        intro s hs
        rw [b7, plainStarts_get _ _ (by omega), Nat.zero_add])
    rw [hb] at b8
    rw [← Res.ok.inj b8, List.map_map]
    congr 1
    apply List.ext_getElem?
    intro s
    by_cases hs : s < maps.length
    · obtain ⟨ps, ls, e1, e2, e3, e4, e5, e6, bb, ee, e7, e8, e9, e10, e11⟩ := hS s maps[s] (by simp [hs])
      have hzz : (locals.zip push)[s]? = some (ls, ps) := by
        rw [List.getElem?_zip_eq_some]; exact ⟨e2, e1⟩
      rw [List.getElem?_map, List.getElem?_map, hzz, List.getElem?_eq_getElem hs]
      simp only [Option.map_some, Function.comp_apply, sentBlock, segment, e3, e5, e7, e8, e11,
        Option.getD_some, hpst s ps e1]
    · rw [List.getElem?_eq_none (by simp; omega), List.getElem?_eq_none (by simp; omega)]

end DNDSR.IMap
