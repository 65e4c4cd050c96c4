import Verif.Proof.Storage

/-! What `createTypes` builds. -/

namespace DNDSR.Tran

open DNDSR.Arr hiding Array
open DNDSR.IMap

variable {α : Type}

/-! ### segments -/

theorem segment_getElem? {β : Type} (l : List β) (st : List Nat) (t b e j : Nat) (hb : st[t]? = some b)
    (he : st[t + 1]? = some e) (hj : b + j < e) : (segment l st t)[j]? = l[b + j]? := by
  simp only [segment, hb, he]
  rw [List.getElem?_take, if_pos (by omega), List.getElem?_drop]

theorem segment_map {β γ : Type} (f : β → γ) (l : List β) (st : List Nat) (t : Nat) :
    segment (l.map f) st t = (segment l st t).map f := by
  simp only [segment]
  split
  · rw [List.map_take, List.map_drop]
  · rfl

/-- the global facts about a family of mappings used below -/
structure Maps (lens : List Nat) (reqs : List (List Int)) (maps : List Map) : Prop where
  len : maps.length = lens.length
  rlen : reqs.length = lens.length
  ok : ∀ (r : Nat) (m : Map), maps[r]? = some m → MapOk lens reqs maps r m

theorem Maps.local {lens : List Nat} {reqs : List (List Int)} {maps : List Map} (h : Maps lens reqs maps)
    {r : Nat} {m : Map} (hm : maps[r]? = some m) : ∃ req, LocalOk lens req m.loc := by
  obtain ⟨q, _, hq⟩ := (h.ok r m hm).req
  exact ⟨q, hq⟩

/-- ghost segment of `s` owned by `r`: positions and starts -/
theorem Maps.starts {lens : List Nat} {reqs : List (List Int)} {maps : List Map} (h : Maps lens reqs maps)
    {s : Nat} {ms : Map} (hs : maps[s]? = some ms) (r : Nat) (hr : r < lens.length) :
    ∃ b e, ms.ghostStart[r]? = some b ∧ ms.ghostStart[r + 1]? = some e ∧ b ≤ e ∧
      e ≤ ms.ghostIndex.length ∧ (segment ms.ghostIndex ms.ghostStart r).length = e - b ∧
      ms.ghostSizes[r]? = some (e - b) ∧
      (∀ k q, ms.ghostIndex[k]? = some q → ((b ≤ k ∧ k < e) ↔ Owns lens r q)) := by
  obtain ⟨req, hl⟩ := h.local hs
  have hb : ms.ghostStart[r]? = _ := hl.start r (by omega)
  have he : ms.ghostStart[r + 1]? = _ := hl.start (r + 1) (by omega)
  have hc : ms.ghostSizes[r]? = _ := hl.size r hr
  have hsucc := hl.start_succ r _ _ _ hr hb he hc
  have hle : List.countP (fun q => decide (q < (before lens (r + 1) : Int))) ms.loc.ghostIndex ≤
      ms.ghostIndex.length := List.countP_le_length
  refine ⟨_, _, hb, he, by omega, hle, ?_, by rw [hc]; congr 1; omega, ?_⟩
  · rw [hl.segment_length r hr, hc, Option.getD_some]; omega
  · intro k q hk
    exact hl.block r _ _ k q hr hb he hk

theorem Maps.start_last {lens : List Nat} {reqs : List (List Int)} {maps : List Map} (h : Maps lens reqs maps)
    {s : Nat} {ms : Map} (hs : maps[s]? = some ms) :
    ms.ghostStart.getLast? = some ms.ghostIndex.length ∧ ms.ghostStart.length = maps.length + 1 := by
  obtain ⟨req, hl⟩ := h.local hs
  have h1 : ms.ghostStart[lens.length]? = some ms.ghostIndex.length := hl.start_last
  have h2 : ms.ghostStart.length = lens.length + 1 := hl.start_length
  refine ⟨?_, by rw [h2, h.len]⟩
  rw [List.getLast?_eq_getElem?, h2]; exact h1

theorem Maps.owner {lens : List Nat} {reqs : List (List Int)} {maps : List Map} (h : Maps lens reqs maps)
    {s : Nat} {ms : Map} (hs : maps[s]? = some ms) (k : Nat) (q : Int) (hk : ms.ghostIndex[k]? = some q) :
    ∃ r, Owns lens r q := by
  obtain ⟨req, hl⟩ := h.local hs
  have : q ∈ req := (hl.mem q).1 (List.mem_of_getElem? hk)
  obtain ⟨h1, h2⟩ := hl.range q this
  exact owns_exists h1 h2

/-- the push list of `r` for `s` -/
theorem Maps.push {lens : List Nat} {reqs : List (List Int)} {maps : List Map} (h : Maps lens reqs maps)
    {r s : Nat} {mr ms : Map} (hr : maps[r]? = some mr) (hs : maps[s]? = some ms) :
    ∃ b n, mr.pushIndexStarts[s]? = some b ∧ mr.pushIndexSizes[s]? = some n ∧
      b + n ≤ mr.pushingIndexGlobal.length ∧
      (mr.pushingIndexGlobal.drop b).take n = segment ms.ghostIndex ms.ghostStart r := by
  have hk := h.ok r mr hr
  obtain ⟨h1, h2⟩ := MapOk.push_segment h.ok hr hs
  have hsl : s < maps.length := (List.getElem?_eq_some_iff.1 hs).1
  have hlen : mr.pushIndexSizes.length = maps.length := by rw [hk.pushSizes]; simp
  have hb : mr.pushIndexStarts[s]? = some (mr.pushIndexSizes.take s).sum := by
    rw [hk.pushStarts, plainStarts_get _ _ (by omega)]
  have he : mr.pushIndexStarts[s + 1]? = some (mr.pushIndexSizes.take (s + 1)).sum := by
    rw [hk.pushStarts, plainStarts_get _ _ (by omega)]
  have hn : mr.pushIndexSizes[s]? = some (mr.pushIndexSizes[s]'(by omega)) := by simp
  have hsum : (mr.pushIndexSizes.take (s + 1)).sum =
      (mr.pushIndexSizes.take s).sum + mr.pushIndexSizes[s]'(by omega) := by
    rw [List.take_succ_eq_append_getElem (by omega), List.sum_append_nat]; simp
  obtain ⟨b, e, c1, c2, c3, c4, c5, c6, c7⟩ := h.starts hs r hk.rank
  have hseg : (mr.pushingIndexGlobal.drop (mr.pushIndexSizes.take s).sum).take
      (mr.pushIndexSizes[s]'(by omega)) = segment ms.ghostIndex ms.ghostStart r := by
    rw [← h1]
    simp only [segment, hb, he]
    congr 1; omega
  refine ⟨_, _, hb, hn, ?_, hseg⟩
  rw [h2, c6] at hn
  have hn' := Option.some.inj hn
  have hl := congrArg List.length hseg
  rw [c5, List.length_take, List.length_drop] at hl
  by_cases hz : mr.pushIndexSizes[s]'(by omega) = 0
  · -- an empty block: its start is inside
    have htot : mr.pushingIndexGlobal.length = mr.pushIndexSizes.sum := by
      rw [hk.pushGlobal, List.length_flatten, hk.pushSizes, List.map_map]
      congr 1
      apply List.map_congr_left
      intro m hm
      obtain ⟨t, ht, rfl⟩ := List.mem_iff_getElem.1 hm
      obtain ⟨q, hq⟩ := h.local (r := t) (m := maps[t]) (by simp [ht])
      rw [Function.comp_apply, hq.segment_length r hk.rank]
    have : (mr.pushIndexSizes.take s).sum ≤ mr.pushIndexSizes.sum := before_le_total _ _
    omega
  · omega

/-- every entry of a push list is an own row -/
theorem Maps.push_owned {lens : List Nat} {reqs : List (List Int)} {maps : List Map}
    (h : Maps lens reqs maps) {r : Nat} {mr : Map} (hr : maps[r]? = some mr) (q : Int)
    (hq : q ∈ mr.pushingIndexGlobal) : Owns lens r q := by
  have hk := h.ok r mr hr
  rw [hk.pushGlobal, List.mem_flatten] at hq
  obtain ⟨l, hl, hq⟩ := hq
  obtain ⟨ms, hms, rfl⟩ := List.mem_map.1 hl
  obtain ⟨t, ht, rfl⟩ := List.mem_iff_getElem.1 hms
  obtain ⟨req, hlk⟩ := h.local (r := t) (m := maps[t]) (by simp [ht])
  exact ((hlk.segment_get r hk.rank q).1 hq).2

/-- What ghost communication needs of the mappings of all ranks; both the pull and the push constructor
establish it (`Maps.links`, `pushMaps_links`). -/
structure Links (lens : List Nat) (maps : List Map) : Prop where
  len : maps.length = lens.length
  size : ∀ {r : Nat} {m : Map}, maps[r]? = some m → lens[r]? = some m.mainSize
  main : ∀ {r : Nat} {m : Map}, maps[r]? = some m → ∀ q, Owns lens r q → m.searchInMain q = some (q - before lens r)
  gsLen : ∀ {s : Nat} {ms : Map}, maps[s]? = some ms → ms.ghostSizes.length = lens.length
  gst : ∀ {s : Nat} {ms : Map}, maps[s]? = some ms → ms.ghostStart = plainStarts ms.ghostSizes
  starts : ∀ {s : Nat} {ms : Map}, maps[s]? = some ms → ∀ r, r < lens.length →
    ∃ b e, ms.ghostStart[r]? = some b ∧ ms.ghostStart[r + 1]? = some e ∧ b ≤ e ∧
      e ≤ ms.ghostIndex.length ∧ (segment ms.ghostIndex ms.ghostStart r).length = e - b ∧
      ms.ghostSizes[r]? = some (e - b) ∧
      (∀ (k : Nat) (q : Int), ms.ghostIndex[k]? = some q → ((b ≤ k ∧ k < e) ↔ Owns lens r q))
  start_last : ∀ {s : Nat} {ms : Map}, maps[s]? = some ms →
    ms.ghostStart.getLast? = some ms.ghostIndex.length ∧ ms.ghostStart.length = maps.length + 1
  owner : ∀ {s : Nat} {ms : Map}, maps[s]? = some ms → ∀ (k : Nat) (q : Int), ms.ghostIndex[k]? = some q →
    ∃ r, Owns lens r q
  push : ∀ {r s : Nat} {mr ms : Map}, maps[r]? = some mr → maps[s]? = some ms →
    ∃ b n, mr.pushIndexStarts[s]? = some b ∧ mr.pushIndexSizes[s]? = some n ∧
      b + n ≤ mr.pushingIndexGlobal.length ∧
      (mr.pushingIndexGlobal.drop b).take n = segment ms.ghostIndex ms.ghostStart r
  sizes : ∀ {r s : Nat} {mr ms : Map}, maps[r]? = some mr → maps[s]? = some ms →
    mr.pushIndexSizes[s]? = ms.ghostSizes[r]?
  push_owned : ∀ {r : Nat} {mr : Map}, maps[r]? = some mr → ∀ q ∈ mr.pushingIndexGlobal, Owns lens r q

/-- no rank lists a ghost twice -/
def Distinct (maps : List Map) : Prop := ∀ (s : Nat) (ms : Map) (i j : Nat) (q : Int), maps[s]? = some ms →
  ms.ghostIndex[i]? = some q → ms.ghostIndex[j]? = some q → i = j

theorem Maps.distinct {lens : List Nat} {reqs : List (List Int)} {maps : List Map} (h : Maps lens reqs maps) :
    Distinct maps := by
  intro s ms i j q hs hi hj
  obtain ⟨req, hlk⟩ := h.local hs
  exact pos_unique hlk.sorted hi hj

theorem Maps.links {lens : List Nat} {reqs : List (List Int)} {maps : List Map} (h : Maps lens reqs maps) :
    Links lens maps where
  len := h.len
  size := fun hr => (h.ok _ _ hr).size
  main := fun hr q ho => (h.ok _ _ hr).main_owned q ho
  gsLen := fun hs => by obtain ⟨_, hl⟩ := h.local hs; exact hl.sizes_length
  gst := fun hs => by obtain ⟨_, hl⟩ := h.local hs; exact hl.st
  starts := fun hs r hr => h.starts hs r hr
  start_last := fun hs => h.start_last hs
  owner := fun hs k q hk => h.owner hs k q hk
  push := fun hr hs => h.push hr hs
  sizes := fun hr hs => (MapOk.push_segment h.ok hr hs).2
  push_owned := fun hr q hq => h.push_owned hr q hq

/-- row of the owner `r` that has global index `q` -/
def locRow (lens : List Nat) (r : Nat) (q : Int) : Nat := (q - before lens r).toNat

theorem locRow_lt {lens : List Nat} {r : Nat} {q : Int} (h : Owns lens r q) (n : Nat)
    (hn : lens[r]? = some n) : locRow lens r q < n ∧ (locRow lens r q : Int) = q - before lens r := by
  obtain ⟨hr, h1, h2⟩ := h
  have := (List.getElem?_eq_some_iff.1 hn).2
  unfold locRow
  rw [this] at h2
  omega

theorem ownLoc_eq {lens : List Nat} {maps : List Map} (h : Links lens maps)
    {r : Nat} {mr : Map} (hr : maps[r]? = some mr) (q : Int) (ho : Owns lens r q) :
    ownLoc mr q = .ok (locRow lens r q : Int) := by
  simp only [ownLoc, Map.search, h.main hr q ho, Res.ok_bind]
  rw [Res.assert_true _ trivial, Res.ok_bind, (locRow_lt ho _ (h.size hr)).2]

theorem forRanks_map {β γ : Type} (f : Nat → β → Res γ) (g : β → γ) : ∀ (l : List β) (r : Nat),
    (∀ i x, x ∈ l → f i x = .ok (g x)) → forRanks f r l = .ok (l.map g) := by
  intro l
  induction l with
  | nil => intro r _; rfl
  | cons x xs ih =>
    intro r h
    simp only [forRanks, h r x (by simp), Res.ok_bind, ih (r + 1) (fun i y hy => h i y (by simp [hy])),
      List.map_cons]

theorem pushInfo_eq {lens : List Nat} {maps : List Map} (h : Links lens maps)
    {r : Nat} {mr : Map} (hr : maps[r]? = some mr) {ty : Ty} {fa : Arr.Array α} (hf : Flat ty fa)
    (hs : lens[r]? = some fa.size) :
    pushInfo ty mr fa = .ok (mr.pushingIndexGlobal.map (fun q =>
      (startOf ty fa (locRow lens r q), lenOf ty fa (locRow lens r q)))) := by
  have hp0 : ∃ p, rowPtr ty fa 0 = .ok p := by
    rcases Nat.eq_zero_or_pos fa.size with h0 | h0
    · obtain ⟨p, hp, _⟩ := rowPtr_empty hf.inv h0
      exact ⟨p, hp⟩
    · exact ⟨_, hf.rowPtr 0 (by omega) h0⟩
  obtain ⟨p0, hp0⟩ := hp0
  simp only [pushInfo, hp0, Res.ok_bind]
  apply forRanks_map
  intro i q hq
  have ho := h.push_owned hr q hq
  obtain ⟨hl, _⟩ := locRow_lt ho _ hs
  have hpos : 0 < fa.size := by omega
  rw [ownLoc_eq h hr q ho, Res.ok_bind]
  have e0 : rowPtr ty fa 0 = .ok (some (startOf ty fa 0)) := hf.rowPtr 0 (by omega) hpos
  simp only [rowDisp, e0, hf.rowPtr _ (Nat.le_of_lt hl) hpos, Res.ok_bind, hf.start_zero hpos]
  simp [hf.rowSize _ hl]

/-! ### resizing the son -/

theorem pulling_eq {lens : List Nat} {maps : List Map} (h : Links lens maps)
    (sizes : List (List Nat)) (L : Nat → Int → Nat) (hsl : sizes.length = maps.length)
    (hsz : ∀ (t : Nat) (mt : Map), maps[t]? = some mt → sizes[t]? = some (mt.pushingIndexGlobal.map (L t)))
    {s : Nat} {ms : Map} (hs : maps[s]? = some ms) :
    ∃ pulling, recvBlocks s ((sizes.zip maps).map (fun x => (x.1, x.2.pushIndexSizes, x.2.pushIndexStarts)))
        ms.ghostSizes ms.ghostStart 0 = .ok pulling ∧ pulling.length = ms.ghostIndex.length ∧
      ∀ (k : Nat) (q : Int) (t : Nat), ms.ghostIndex[k]? = some q → Owns lens t q → pulling[k]? = some (L t q) := by
  have hgs : ms.ghostSizes.length = lens.length := h.gsLen hs
  have hst : ms.ghostStart = plainStarts ms.ghostSizes := h.gst hs
  have hzip : ∀ (t : Nat) (mt : Map), maps[t]? = some mt → ((sizes.zip maps).map
      (fun x => (x.1, x.2.pushIndexSizes, x.2.pushIndexStarts)))[t]? =
      some (mt.pushingIndexGlobal.map (L t), mt.pushIndexSizes, mt.pushIndexStarts) := by
    intro t mt hmt
    have : (sizes.zip maps)[t]? = some (mt.pushingIndexGlobal.map (L t), mt) := by
      rw [List.getElem?_zip_eq_some]; exact ⟨hsz t mt hmt, hmt⟩
    rw [List.getElem?_map, this]; rfl
  have hblk : ∀ (t : Nat) (mt : Map), maps[t]? = some mt → ∃ b n, mt.pushIndexStarts[s]? = some b ∧
      mt.pushIndexSizes[s]? = some n ∧ ms.ghostSizes[t]? = some n ∧ b + n ≤ mt.pushingIndexGlobal.length ∧
      (mt.pushingIndexGlobal.drop b).take n = segment ms.ghostIndex ms.ghostStart t := by
    intro t mt hmt
    obtain ⟨b, n, h1, h2, h3, h4⟩ := h.push hmt hs
    refine ⟨b, n, h1, h2, ?_, h3, h4⟩
    rw [← h.sizes hmt hs]; exact h2
  let Ls := (sizes.zip maps).map (fun x => (x.1, x.2.pushIndexSizes, x.2.pushIndexStarts))
  have hLs : Ls.length = maps.length := by simp [Ls]; omega
  have hb := recvBlocks_spec s Ls ms.ghostSizes ms.ghostStart 0 (by rw [hgs, hLs, h.len])
    (by rw [hst, plainStarts_length]; omega)
    (by
      intro t x hx
      have ht : t < maps.length := by
        have := (List.getElem?_eq_some_iff.1 hx).1; omega
      have hz := hzip t maps[t] (by simp [ht])
      rw [hz] at hx; cases hx
      obtain ⟨b, n, h1, h2, h3, h4, _⟩ := hblk t maps[t] (by simp [ht])
      exact ⟨n, b, h2, h3, h1, by simpa using h4⟩)
    (by
      intro t ht
      rw [hst, plainStarts_get _ _ (by omega), Nat.zero_add])
  have hMs : ∀ t (ht : t < maps.length), (Ls.map (sentBlock s))[t]? =
      some ((segment ms.ghostIndex ms.ghostStart t).map (L t)) := by
    intro t ht
    obtain ⟨b, n, h1, h2, h3, h4, h5⟩ := hblk t maps[t] (by simp [ht])
    rw [List.getElem?_map, show Ls[t]? = _ from hzip t maps[t] (by simp [ht])]
    simp only [Option.map_some, sentBlock, h1, h2, Option.getD_some, ← List.map_drop, ← List.map_take, h5]
  have hlens : (Ls.map (sentBlock s)).map List.length = ms.ghostSizes := by
    apply List.ext_getElem?
    intro t
    by_cases ht : t < maps.length
    · obtain ⟨b, e, c1, c2, c3, c4, c5, c6, c7⟩ := h.starts hs t (by rw [← h.len]; exact ht)
      rw [List.getElem?_map, hMs t ht, c6]
      simp [c5]
    · rw [List.getElem?_eq_none (by simp; omega), List.getElem?_eq_none (by rw [hgs, ← h.len]; omega)]
  refine ⟨_, hb, ?_, ?_⟩
  · rw [List.length_flatten, hlens]
    have h1 := (h.start_last hs).1
    rw [List.getLast?_eq_getElem?, (h.start_last hs).2, hst, Nat.add_sub_cancel, h.len,
      plainStarts_get _ _ (by omega), ← hgs, List.take_length] at h1
    exact Option.some.inj h1
  · intro k q t hkq ho
    have ht : t < maps.length := by rw [h.len]; exact ho.1
    obtain ⟨b, e, c1, c2, c3, c4, c5, c6, c7⟩ := h.starts hs t ho.1
    obtain ⟨d1, d2⟩ := (c7 k q hkq).2 ho
    have hseg := segment_flatten (Ls.map (sentBlock s)) t (by simp; omega)
    rw [hlens, ← hst] at hseg
    have h2 := hMs t ht
    rw [List.getElem?_eq_getElem (by simp; omega)] at h2
    rw [Option.some.inj h2] at hseg
    have h3 := segment_getElem? (Ls.map (sentBlock s)).flatten ms.ghostStart t b e (k - b) c1 c2 (by omega)
    rw [hseg, show b + (k - b) = k by omega] at h3
    rw [← h3, List.getElem?_map]
    have h4 := segment_getElem? ms.ghostIndex ms.ghostStart t b e (k - b) c1 c2 (by omega)
    rw [h4, show b + (k - b) = k by omega, hkq]; rfl

theorem resizeRows_eq (z : α) {ty : Ty} (hl : ty.layout = .max ∨ ty.layout = .staticMax) :
    ∀ (ns : List Nat) (i : Nat) (a : Arr.Array α) (pre : List Nat) (post : List Nat),
    a.pRowSizes = some (pre ++ post) → pre.length = i → post.length = ns.length →
    i + ns.length = a.size → (∀ n ∈ ns, n ≤ stride ty a) →
    resizeRows z ty a i ns = .ok { a with pRowSizes := some (pre ++ ns) } := by
  intro ns
  induction ns with
  | nil =>
    intro i a pre post hp hi hpl hs hn
    have : post = [] := List.length_eq_zero_iff.1 (by simpa using hpl)
    subst this
    simp only [List.append_nil] at hp ⊢
    rw [resizeRows, ← hp]
  | cons n ns ih =>
    intro i a pre post hp hi hpl hs hn
    cases post with
    | nil => simp at hpl
    | cons x post =>
      have hset : (pre ++ x :: post).set i n = (pre ++ [n]) ++ post := by
        subst hi; simp
      have hstep : resizeRow z ty a (i : Int) n = .ok { a with pRowSizes := some ((pre ++ [n]) ++ post) } := by
        have hil : i < a.size := by simp at hs; omega
        rcases hl with hl | hl <;>
        · simp only [resizeRow, hl]
          rw [Res.assert_true _ (hn n (by simp)), Res.ok_bind, Res.assert_true _ (by omega), Res.ok_bind, hp]
          simp only [Int.toNat_natCast]
          rw [vat_ok _ _ (by simp; omega), Res.ok_bind, hset]
      simp only [resizeRows, hstep, Res.ok_bind]
      have hst : stride ty ({ a with pRowSizes := some ((pre ++ [n]) ++ post) } : Arr.Array α) = stride ty a := rfl
      rw [ih (i + 1) _ (pre ++ [n]) post rfl (by simp [hi]) (by simpa using hpl) (by simp at hs ⊢; omega)
        (fun m hm => by rw [hst]; exact hn m (by simp [hm]))]
      simp

theorem stride_eq {ty : Ty} {a b : Arr.Array α} (h : a.rowSizeDyn = b.rowSizeDyn) : stride ty a = stride ty b := by
  unfold stride; rw [h]

/-- the resized son -/
structure SonOk (ty : Ty) (fa so : Arr.Array α) (n : Nat) : Prop where
  flat : Flat ty so
  size : so.size = n
  width : ty.layout ≠ .csr → stride ty so = stride ty fa

theorem sonResize_eq (z : α) {ty : Ty} (u : Bool) {lens : List Nat} {maps : List Map}
    (h : Links lens maps) (sizes : List (List Nat)) (L : Nat → Int → Nat)
    (hsl : sizes.length = maps.length)
    (hsz : ∀ (t : Nat) (mt : Map), maps[t]? = some mt → sizes[t]? = some (mt.pushingIndexGlobal.map (L t)))
    {s : Nat} {ms : Map} (hs : maps[s]? = some ms) {fa so : Arr.Array α} (hso : Inv ty so)
    (hLw : ty.layout ≠ .csr → ∀ (k : Nat) (q : Int) (t : Nat), ms.ghostIndex[k]? = some q → Owns lens t q → L t q ≤ stride ty fa)
    (hLc : ty.layout = .csr → ∀ (k : Nat) (q : Int) (t : Nat), ms.ghostIndex[k]? = some q → Owns lens t q → L t q < int32Max)
    (hLf : ty.layout = .fixed ∨ ty.layout = .staticFixed →
      ∀ (k : Nat) (q : Int) (t : Nat), ms.ghostIndex[k]? = some q → Owns lens t q → L t q = stride ty fa) :
    ∃ so', sonResize z ty u maps sizes s ms fa so = .ok so' ∧ SonOk ty fa so' ms.ghostIndex.length ∧
      ∀ (k : Nat) (q : Int) (t : Nat), ms.ghostIndex[k]? = some q → Owns lens t q → lenOf ty so' k = L t q := by
  obtain ⟨hlast, hstl⟩ := h.start_last hs
  obtain ⟨pulling, hpul, hpl, hpg⟩ := pulling_eq h sizes L hsl hsz hs
  have hpn : ty.layout ≠ .csr → ∀ n ∈ pulling, n ≤ stride ty fa := by
    intro hc n hn
    obtain ⟨k, hk, rfl⟩ := List.mem_iff_getElem.1 hn
    obtain ⟨t, ho⟩ := h.owner hs k (ms.ghostIndex[k]'(by omega)) (by simp)
    have := hpg k _ t (by simp) ho
    rw [List.getElem?_eq_getElem hk] at this
    rw [Option.some.inj this]
    exact hLw hc k _ t (by simp) ho
  simp only [sonResize, hlast]
  rw [Res.assert_true _ hstl, Res.ok_bind]
  have hmax : ∀ (so2 : Arr.Array α) (sz : List Nat), ty.layout = .max ∨ ty.layout = .staticMax →
      so2.size = ms.ghostIndex.length → so2.data.length = so2.size * stride ty so2 → stride ty so2 = stride ty fa →
      so2.pRowSizes = some sz → sz.length = ms.ghostIndex.length →
      ∃ so', resizeRows z ty so2 0 pulling = .ok so' ∧ SonOk ty fa so' ms.ghostIndex.length ∧
      ∀ (k : Nat) (q : Int) (t : Nat), ms.ghostIndex[k]? = some q → Owns lens t q → lenOf ty so' k = L t q := by
    intro so2 sz hl hsize hd hstr hp hszl
    have hnc : ty.layout ≠ .csr := by rcases hl with hl | hl <;> rw [hl] <;> simp
    have hrr := resizeRows_eq z hl pulling 0 so2 [] sz (by simpa using hp) rfl (by omega) (by omega)
      (fun n hn => by rw [hstr]; exact hpn hnc n hn)
    refine ⟨_, hrr, ⟨⟨⟨hso.lay, ?_, ?_, ?_, ?_⟩, ?_⟩, hsize, ?_⟩, ?_⟩
    · intro _; exact hd
    · intro _; right
      refine ⟨pulling, by simp, by simp [hpl, hsize], ?_⟩
      intro n hn
      have := hpn hnc n hn
      have h2 : stride ty ({ so2 with pRowSizes := some ([] ++ pulling) } : Arr.Array α) = stride ty so2 := rfl
      omega
    · rintro ⟨hc, _⟩; exact absurd hc hnc
    · intro hc; exact absurd hc hnc
    · rintro _ ⟨hc, _⟩; exact absurd hc hnc
    · intro _; exact hstr
    · intro k q t hk ho
      have := hpg k q t hk ho
      rcases hl with hl | hl <;> simp [lenOf, hl, this]
  have hfix : ∀ (so' : Arr.Array α), ty.layout = .fixed ∨ ty.layout = .staticFixed →
      so'.size = ms.ghostIndex.length → so'.data.length = so'.size * stride ty so' → stride ty so' = stride ty fa →
      SonOk ty fa so' ms.ghostIndex.length ∧
      ∀ (k : Nat) (q : Int) (t : Nat), ms.ghostIndex[k]? = some q → Owns lens t q → lenOf ty so' k = L t q := by
    intro so' hl hsize hd hstr
    have hnc : ty.layout ≠ .csr := by rcases hl with hl | hl <;> rw [hl] <;> simp
    refine ⟨⟨⟨⟨hso.lay, fun _ => hd, ?_, ?_, ?_⟩, ?_⟩, hsize, fun _ => hstr⟩, ?_⟩
    · rintro (hx | hx) <;> rcases hl with hl | hl <;> rw [hl] at hx <;> cases hx
    · rintro ⟨hc, _⟩; exact absurd hc hnc
    · intro hc; exact absurd hc hnc
    · rintro _ ⟨hc, _⟩; exact absurd hc hnc
    · intro k q t hk ho
      rw [lenOf_fixed hl, hLf hl k q t hk ho, hstr]
  have hlay := hso.lay
  cases hly : ty.layout with
  | errorLayout => exact absurd hly hlay
  | staticFixed =>
    simp only [resize1, hly]
    refine ⟨_, rfl, hfix _ (Or.inr hly) rfl ?_ ?_⟩
    · simp [vresize_length, stride, hly]
    · simp [stride, hly]
  | fixed =>
    simp only [resize2, hly]
    refine ⟨_, rfl, hfix _ (Or.inl hly) rfl ?_ ?_⟩
    · simp [vresize_length, stride, hly]
    · simp [stride, hly]
  | max =>
    simp only [resize2, hly, Res.ok_bind, hpul]
    obtain ⟨sz, hsz', hszl, _⟩ := resizeRowSizes_spec u (resizeRowSizes u so.pRowSizes ms.ghostIndex.length) ms.ghostIndex.length
    refine hmax _ sz (Or.inl hly) rfl ?_ ?_ hsz' hszl
    · simp [vresize_length, stride, hly]
    · simp [stride, hly]
  | staticMax =>
    simp only [resize1, hly, Res.ok_bind, hpul]
    obtain ⟨sz, hsz', hszl, _⟩ := resizeRowSizes_spec u (resizeRowSizes u so.pRowSizes ms.ghostIndex.length) ms.ghostIndex.length
    refine hmax _ sz (Or.inr hly) rfl ?_ ?_ hsz' hszl
    · simp [vresize_length, stride, hly]
    · simp [stride, hly]
  | csr =>
    simp only [Res.ok_bind, hpul]
    have hf : ∀ i, i < ms.ghostIndex.length → pulling[i]?.getD 0 < int32Max := by
      intro i hi
      obtain ⟨t, ho⟩ := h.owner hs i ms.ghostIndex[i] (by simp [hi])
      rw [hpg i _ t (by simp [hi]) ho]
      exact hLc hly i _ t (by simp [hi]) ho
    obtain ⟨so', h1, h2, h3, h4⟩ := resizeF_spec z hso hly ms.ghostIndex.length _ hf
    have hsz : so'.size = ms.ghostIndex.length := by rw [← rowsOf_length h2]; exact h3
    have hps : so'.pRowStart.isSome = true := by
      simp only [resizeF, hly, Res.bind_ok_iff, Res.ok.injEq] at h1
      obtain ⟨_, _, rfl⟩ := h1
      rfl
    have hfl : Flat ty so' := by
      refine ⟨h2, ?_⟩
      rintro hpos ⟨_, hc⟩
      simp [ifCompressed, hpos, hps] at hc
    refine ⟨so', h1, ⟨hfl, hsz, fun hc => absurd hly hc⟩, ?_⟩
    intro k q t hk ho
    have hkl : k < ms.ghostIndex.length := (List.getElem?_eq_some_iff.1 hk).1
    have := h4 k hkl
    rw [hfl.row k (by omega), Option.map_some, List.length_take, hfl.srow_length k (by omega),
      Nat.min_eq_left (hfl.len_le k (by omega)), hpg k q t hk ho] at this
    simpa using this

/-! ### the datatypes -/

theorem flat_ptr {ty : Ty} {so : Arr.Array α} (h : Flat ty so) (i : Nat) (hi : i ≤ so.size) :
    ∃ p p0, rowPtr ty so (i : Int) = .ok p ∧ rowPtr ty so 0 = .ok p0 ∧
      ((p = none ∧ p0 = none ∧ so.size = 0) ∨
       (p0 = some 0 ∧ p = some (if so.size = 0 then 0 else startOf ty so i))) := by
  rcases Nat.eq_zero_or_pos so.size with h0 | h0
  · obtain ⟨p, hp, hpp⟩ := rowPtr_empty h.inv h0
    have : i = 0 := by omega
    subst this
    refine ⟨p, p, hp, hp, ?_⟩
    rcases hpp with rfl | rfl
    · left; exact ⟨rfl, rfl, h0⟩
    · right; simp [h0]
  · have e0 : rowPtr ty so 0 = _ := h.rowPtr 0 (by omega) h0
    rw [h.start_zero h0] at e0
    exact ⟨_, _, h.rowPtr i hi h0, e0, Or.inr ⟨rfl, by rw [if_neg (by omega)]⟩⟩

/-- the rows of a segment: sum of their storage lengths -/
theorem sum_slen {ty : Ty} {so : Arr.Array α} (h : Flat ty so) : ∀ (n b : Nat), b + n ≤ so.size →
    ((List.range' b n).map (slenOf ty so)).sum = startOf ty so (b + n) - startOf ty so b ∧
    startOf ty so b ≤ startOf ty so (b + n) := by
  intro n
  induction n with
  | zero => intro b _; simp
  | succ n ih =>
    intro b hb
    obtain ⟨h1, h2⟩ := ih (b + 1) (by omega)
    have h3 := h.start_succ b (by omega)
    rw [List.range'_succ, List.map_cons, List.sum_cons, h1]
    rw [show b + (n + 1) = b + 1 + n by omega]
    omega

/-- what the derived types look like, relative to a father and son of every rank -/
structure Wired (ty : Ty) (lens : List Nat) (maps : List Map) (w : World α) (types : List Types) : Prop where
  fl : w.fathers.length = lens.length
  sl : w.sons.length = lens.length
  tl : types.length = lens.length
  fa : ∀ (r : Nat) (fa : Arr.Array α), w.fathers[r]? = some fa → Flat ty fa ∧ lens[r]? = some fa.size
  so : ∀ (s : Nat) (so : Arr.Array α) (ms : Map), w.sons[s]? = some so → maps[s]? = some ms →
    Flat ty so ∧ so.size = ms.ghostIndex.length
  row : ∀ (r s : Nat) (fa so : Arr.Array α) (ms : Map) (k : Nat) (q : Int), w.fathers[r]? = some fa → w.sons[s]? = some so →
    maps[s]? = some ms → ms.ghostIndex[k]? = some q → Owns lens r q →
    slenOf ty so k = slenOf ty fa (locRow lens r q) ∧ lenOf ty so k = lenOf ty fa (locRow lens r q)
  push : ∀ (r s : Nat) (t : Types) (fa : Arr.Array α) (ms : Map), types[r]? = some t → w.fathers[r]? = some fa →
    maps[s]? = some ms → t.push[s]? = some
      (let blk := (segment ms.ghostIndex ms.ghostStart r).map (fun q =>
        (startOf ty fa (locRow lens r q), slenOf ty fa (locRow lens r q)))
       if (blk.map (·.2)).sum > 0 then some blk else none)
  pull : ∀ (r s : Nat) (t : Types) (so : Arr.Array α) (ms : Map) (b e : Nat), types[s]? = some t → w.sons[s]? = some so →
    maps[s]? = some ms → r < lens.length → ms.ghostStart[r]? = some b → ms.ghostStart[r + 1]? = some e →
    t.pull[r]? = some (if startOf ty so e - startOf ty so b > 0 then
      some (startOf ty so b, startOf ty so e - startOf ty so b) else none)

theorem forRanks_abort {β γ : Type} (f : Nat → β → Res γ) : ∀ (l : List β) (r : Nat),
    (∀ i x, l[i]? = some x → f (r + i) x ≠ .ub) → forRanks f r l = .abort →
    ∃ i x, l[i]? = some x ∧ f (r + i) x = .abort := by
  intro l
  induction l with
  | nil => intro r _ h; simp [forRanks] at h
  | cons x xs ih =>
    intro r hu h
    simp only [forRanks] at h
    cases hx : f r x with
    | ub => exact absurd hx (hu 0 x (by simp))
    | abort => exact ⟨0, x, by simp, hx⟩
    | ok y =>
      simp only [hx, Res.ok_bind] at h
      cases hy : forRanks f (r + 1) xs with
      | ok ys => simp [hy] at h
      | ub => simp [hy] at h
      | abort =>
        obtain ⟨i, z, h1, h2⟩ := ih (r + 1) (by
          intro i z hz
          have := hu (i + 1) z (by simpa using hz)
          rwa [show r + (i + 1) = r + 1 + i by omega] at this) hy
        exact ⟨i + 1, z, by simpa using h1, by rw [← h2]; congr 1; omega⟩

theorem mkTypes_spec {ty : Ty} {lens : List Nat} {maps : List Map}
    (h : Links lens maps) {r : Nat} {mr : Map} (hr : maps[r]? = some mr) {fa so : Arr.Array α}
    (hfa : Flat ty fa) (hson : SonOk ty fa so mr.ghostIndex.length) :
    (mkTypes ty maps.length mr (mr.pushingIndexGlobal.map (fun q =>
        (startOf ty fa (locRow lens r q), lenOf ty fa (locRow lens r q)))) so = .abort ∧
      0 < so.size ∧ int32Max ≤ startOf ty so so.size) ∨
    ∃ t, mkTypes ty maps.length mr (mr.pushingIndexGlobal.map (fun q =>
        (startOf ty fa (locRow lens r q), lenOf ty fa (locRow lens r q)))) so = .ok t ∧
      (∀ (s : Nat) (ms : Map), maps[s]? = some ms → t.push[s]? = some
        (let blk := (segment ms.ghostIndex ms.ghostStart r).map (fun q =>
          (startOf ty fa (locRow lens r q), slenOf ty fa (locRow lens r q)))
         if (blk.map (·.2)).sum > 0 then some blk else none)) ∧
      (∀ (s b e : Nat), s < lens.length → mr.ghostStart[s]? = some b → mr.ghostStart[s + 1]? = some e →
        t.pull[s]? = some (if startOf ty so e - startOf ty so b > 0 then
          some (startOf ty so b, startOf ty so e - startOf ty so b) else none)) := by
  -- the block lengths become the storage lengths
  have hinfo : pushBlocks ty so (mr.pushingIndexGlobal.map (fun q =>
          (startOf ty fa (locRow lens r q), lenOf ty fa (locRow lens r q)))) =
      Res.ok (mr.pushingIndexGlobal.map (fun q =>
        (startOf ty fa (locRow lens r q), slenOf ty fa (locRow lens r q)))) := by
    have hlay := hfa.inv.lay
    cases hly : ty.layout with
    | errorLayout => exact absurd hly hlay
    | csr => simp only [pushBlocks, hly, lenOf_csr hly]
    | fixed =>
      simp only [pushBlocks, hly, lenOf_fixed (Or.inl hly), slenOf_table (show ty.layout ≠ .csr by simp [hly])]
    | staticFixed =>
      simp only [pushBlocks, hly, lenOf_fixed (Or.inr hly), slenOf_table (show ty.layout ≠ .csr by simp [hly])]
    | max =>
      have hw := hson.width (by simp [hly])
      have : rowSizeField ty so = .ok (stride ty fa) := by
        rw [← hw]; simp [rowSizeField, stride, hly]
      simp only [pushBlocks, hly, this, Res.ok_bind, List.map_map,
        slenOf_table (show ty.layout ≠ .csr by simp [hly])]
      rfl
    | staticMax =>
      have hw := hson.width (by simp [hly])
      have : rowSizeField ty so = .ok (stride ty fa) := by
        rw [← hw]; simp [rowSizeField, stride, hly]
      simp only [pushBlocks, hly, this, Res.ok_bind, List.map_map,
        slenOf_table (show ty.layout ≠ .csr by simp [hly])]
      rfl
  generalize hI : mr.pushingIndexGlobal.map (fun q =>
        (startOf ty fa (locRow lens r q), slenOf ty fa (locRow lens r q))) = info at hinfo
  -- the push types
  have hpush : ∀ (s : Nat) (ms : Map), maps[s]? = some ms → pushType mr info s = Res.ok
        (let blk := (segment ms.ghostIndex ms.ghostStart r).map (fun q =>
          (startOf ty fa (locRow lens r q), slenOf ty fa (locRow lens r q)))
         if (blk.map (·.2)).sum > 0 then some blk else none) := by
    intro s ms hs
    obtain ⟨b, n, h1, h2, h3, h4⟩ := h.push hr hs
    rw [pushType, (idx_ok_iff _ _ _).2 h2, Res.ok_bind, (idx_ok_iff _ _ _).2 h1, Res.ok_bind, block,
      if_pos (by rw [← hI]; simpa using h3), Res.ok_bind, ← hI, ← List.map_drop, ← List.map_take, h4]
  have hpushAll : ∃ push, forRanks (fun r' (_ : Unit) => pushType mr info r') 0 (List.replicate maps.length ()) =
      Res.ok push := by
    apply forRanks_total
    intro i x hx
    have hi : i < maps.length := by
      have := (List.getElem?_eq_some_iff.1 hx).1; simpa using this
    rw [Nat.zero_add]
    exact ⟨_, hpush i maps[i] (by simp [hi])⟩
  obtain ⟨push, hpushE⟩ := hpushAll
  -- the pull types
  have hpullOne : ∀ (s b e : Nat), s < lens.length → mr.ghostStart[s]? = some b → mr.ghostStart[s + 1]? = some e →
      (pullType ty mr so s = Res.abort ∧ 0 < so.size ∧ int32Max ≤ startOf ty so so.size) ∨
      pullType ty mr so s = Res.ok (if startOf ty so e - startOf ty so b > 0 then
          some (startOf ty so b, startOf ty so e - startOf ty so b) else none) := by
    intro s b e hs hb he
    obtain ⟨b', e', c1, c2, c3, c4, c5, c6, c7⟩ := h.starts hr s hs
    rw [hb] at c1; rw [he] at c2; cases c1; cases c2
    simp only [pullType, (idx_ok_iff _ _ _).2 hb, (idx_ok_iff _ _ _).2 he, Res.ok_bind]
    rcases Nat.eq_zero_or_pos so.size with h0 | h0
    · have hbe : b = 0 ∧ e = 0 := by have := hson.size; omega
      obtain ⟨rfl, rfl⟩ := hbe
      obtain ⟨p, hp, hpp⟩ := rowPtr_empty hson.flat.inv h0
      right
      have hp' : rowPtr ty so ((0 : Nat) : Int) = .ok p := hp
      simp only [hp', hp, Res.ok_bind]
      have hd : ptrDiff p p = .ok 0 := by rcases hpp with rfl | rfl <;> rfl
      simp only [hd, Res.ok_bind]
      rw [Res.assert_true _ (by constructor <;> decide), Res.ok_bind]
      simp
    · have e0 : rowPtr ty so 0 = _ := hson.flat.rowPtr 0 (by omega) h0
      rw [hson.flat.start_zero h0] at e0
      have hsz := hson.size
      have hmono := hson.flat.start_mono b e c3 (by omega)
      have hmono2 := hson.flat.start_mono e so.size (by omega) (by omega)
      simp only [hson.flat.rowPtr b (by omega) h0, hson.flat.rowPtr e (by omega) h0, e0, Res.ok_bind, ptrDiff]
      by_cases ha : ((startOf ty so e : Int) - startOf ty so b < int32Max ∧
          (startOf ty so b : Int) - (0 : Nat) < int32Max)
      · right
        rw [Res.assert_true _ ha, Res.ok_bind]
        by_cases hp : startOf ty so e - startOf ty so b > 0
        · have hp2 : (startOf ty so e : Int) - startOf ty so b > 0 := by omega
          rw [if_pos hp, if_pos hp2]
          congr 3 <;> omega
        · have hp2 : ¬ (startOf ty so e : Int) - startOf ty so b > 0 := by omega
          rw [if_neg hp, if_neg hp2]
      · left
        refine ⟨?_, h0, by omega⟩
        rw [Res.assert, if_neg ha, Res.abort_bind]
  have hmk : mkTypes ty maps.length mr (mr.pushingIndexGlobal.map (fun q =>
        (startOf ty fa (locRow lens r q), lenOf ty fa (locRow lens r q)))) so = (do
      let pull ← forRanks (fun r' (_ : Unit) => pullType ty mr so r') 0 (List.replicate maps.length ())
      Res.ok (⟨push, pull⟩ : Types)) := by
    rw [mkTypes, hinfo, Res.ok_bind, hpushE, Res.ok_bind]
  have hone : ∀ i x, (List.replicate maps.length ())[i]? = some x → i < lens.length := by
    intro i x hx
    have := (List.getElem?_eq_some_iff.1 hx).1
    rw [← h.len]; simpa using this
  cases hP : forRanks (fun r' (_ : Unit) => pullType ty mr so r') 0 (List.replicate maps.length ()) with
  | ub =>
    exfalso
    refine forRanks_ne_ub _ _ 0 ?_ hP
    intro i x hx
    obtain ⟨b, e, c1, c2, _⟩ := h.starts hr i (hone i x hx)
    rw [Nat.zero_add]
    rcases hpullOne i b e (hone i x hx) c1 c2 with ⟨h1, _⟩ | h1 <;> rw [h1] <;> simp
  | abort =>
    left
    refine ⟨by rw [hmk, hP]; rfl, ?_⟩
    obtain ⟨i, x, hx, hab⟩ := forRanks_abort _ _ 0 (by
      intro i x hx
      obtain ⟨b, e, c1, c2, _⟩ := h.starts hr i (hone i x hx)
      rw [Nat.zero_add]
      rcases hpullOne i b e (hone i x hx) c1 c2 with ⟨h1, _⟩ | h1 <;> rw [h1] <;> simp) hP
    obtain ⟨b, e, c1, c2, _⟩ := h.starts hr i (hone i x hx)
    rw [Nat.zero_add] at hab
    rcases hpullOne i b e (hone i x hx) c1 c2 with ⟨_, h2⟩ | h1
    · exact h2
    · rw [h1] at hab; cases hab
  | ok pull =>
    right
    refine ⟨⟨push, pull⟩, by rw [hmk, hP]; rfl, ?_, ?_⟩
    · intro s ms hs
      have hsl : s < maps.length := (List.getElem?_eq_some_iff.1 hs).1
      obtain ⟨y, h1, h2⟩ := ((forRanks_ok _ _ _ _).1 hpushE).2 s () (by simp [hsl])
      rw [Nat.zero_add] at h2
      rw [hpush s ms hs] at h2
      rw [show (Types.push ⟨push, pull⟩)[s]? = push[s]? from rfl, h1, ← Res.ok.inj h2]
    · intro s b e hs hb he
      obtain ⟨y, h1, h2⟩ := ((forRanks_ok _ _ _ _).1 hP).2 s () (by rw [← h.len] at hs; simp [hs])
      rw [Nat.zero_add] at h2
      rcases hpullOne s b e hs hb he with ⟨h3, _⟩ | h3
      · rw [h3] at h2; cases h2
      · rw [h3] at h2
        rw [show (Types.pull ⟨push, pull⟩)[s]? = pull[s]? from rfl, h1, ← Res.ok.inj h2]

end DNDSR.Tran
