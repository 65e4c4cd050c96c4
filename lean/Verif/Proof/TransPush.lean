import Verif.Props.Transformer

/-! Ghost communication over mappings built from push lists. -/

namespace DNDSR.Tran

open DNDSR.Arr hiding Array
open DNDSR.IMap

variable {α : Type}

/-- the local indices to push exist -/
def PushValid (lens : List Nat) (push : List (List Int × List Nat)) : Prop :=
  ∀ (r : Nat) (p : List Int × List Nat), push[r]? = some p → ∀ l ∈ p.1, 0 ≤ l ∧ ∃ n, lens[r]? = some n ∧ l < n

theorem plainStarts_block (gs : List Nat) (r : Nat) (hr : r < gs.length) :
    ∃ b e, (plainStarts gs)[r]? = some b ∧ (plainStarts gs)[r + 1]? = some e ∧ e = b + gs[r] ∧ e ≤ gs.sum ∧
      b = before gs r := by
  refine ⟨before gs r, before gs (r + 1), ?_, ?_, ?_, before_le_total _ _, rfl⟩
  · rw [plainStarts_get _ _ (by omega)]; rfl
  · rw [plainStarts_get _ _ (by omega)]; rfl
  · exact before_succ gs r hr

theorem pushMaps_links {lens : List Nat} {g : GOM} (hg : Built lens g) (push : List (List Int × List Nat))
    (hn : push.length = lens.length) (hz : ∀ p ∈ push, p.2[0]? = some 0) (hv : PushValid lens push)
    (maps : List Map) (h : createPush g lens push = .ok maps) : Links lens maps := by
  obtain ⟨hlen, hall⟩ := createPush_spec hg push hn hz maps h
  have hagree := fun r s mr ms p => push_constructed_agree hg push hn hz maps h r s mr ms p
  have hP : ∀ {r : Nat} {m : Map}, maps[r]? = some m → ∃ p, push[r]? = some p := by
    intro r m hm
    have : r < push.length := by
      have := (List.getElem?_eq_some_iff.1 hm).1; omega
    exact ⟨push[r], by simp [this]⟩
  have hgsl : ∀ {s : Nat} {ms : Map}, maps[s]? = some ms → ms.ghostSizes.length = lens.length := by
    intro s ms hs
    obtain ⟨p, hp⟩ := hP hs
    obtain ⟨_, _, _, _, _, _, _, h8, _, _⟩ := hall s ms p hs hp
    rw [h8]; simp [hlen]
  have hgst : ∀ {s : Nat} {ms : Map}, maps[s]? = some ms → ms.ghostStart = plainStarts ms.ghostSizes := by
    intro s ms hs
    obtain ⟨p, hp⟩ := hP hs
    exact (hall s ms p hs hp).2.2.2.2.2.2.2.2.1
  have hgl : ∀ {s : Nat} {ms : Map}, maps[s]? = some ms → ms.ghostIndex.length = ms.ghostSizes.sum := by
    intro s ms hs
    obtain ⟨p, hp⟩ := hP hs
    obtain ⟨_, _, _, _, _, _, _, h8, _, h10⟩ := hall s ms p hs hp
    rw [h10, h8, List.length_flatten, List.map_map]
    congr 1
    apply List.map_congr_left
    intro m hm
    obtain ⟨t, ht, rfl⟩ := List.mem_iff_getElem.1 hm
    obtain ⟨q, hq⟩ := hP (r := t) (m := maps[t]) (by simp [ht])
    obtain ⟨a1, a2, a3, a4⟩ := hagree t s maps[t] ms q (by simp [ht]) hs hq
    rw [Function.comp_apply, a2, a1, a3]; simp
  have hown : ∀ {s : Nat} {ms : Map}, maps[s]? = some ms → ∀ r, r < lens.length → ∀ q ∈ segment ms.ghostIndex ms.ghostStart r,
      Owns lens r q := by
    intro s ms hs r hr q hq
    obtain ⟨p, hp⟩ := hP (r := r) (m := maps[r]'(by omega)) (by simp)
    obtain ⟨a1, a2, a3, a4⟩ := hagree r s (maps[r]'(by omega)) ms p (by simp) hs hp
    rw [a1] at hq
    obtain ⟨l, hl, rfl⟩ := List.mem_map.1 hq
    have hlm : l ∈ p.1 := by
      simp only [segment] at hl
      split at hl
      · exact List.mem_of_mem_drop (List.mem_of_mem_take hl)
      · simp at hl
    obtain ⟨h1, n, h2, h3⟩ := hv r p hp l hlm
    refine ⟨hr, by omega, ?_⟩
    have := (List.getElem?_eq_some_iff.1 h2).2
    omega
  have hstarts : ∀ {s : Nat} {ms : Map}, maps[s]? = some ms → ∀ r, r < lens.length →
      ∃ b e, ms.ghostStart[r]? = some b ∧ ms.ghostStart[r + 1]? = some e ∧ b ≤ e ∧
      e ≤ ms.ghostIndex.length ∧ (segment ms.ghostIndex ms.ghostStart r).length = e - b ∧
      ms.ghostSizes[r]? = some (e - b) ∧ b = before ms.ghostSizes r := by
    intro s ms hs r hr
    have h1 := hgsl hs
    obtain ⟨b, e, h2, h3, h4, h5, h6⟩ := plainStarts_block ms.ghostSizes r (by omega)
    rw [← hgst hs] at h2 h3
    have h7 := hgl hs
    refine ⟨b, e, h2, h3, by omega, by omega, ?_, ?_, h6⟩
    · simp only [segment, h2, h3, List.length_take, List.length_drop]; omega
    · rw [List.getElem?_eq_getElem (by omega)]; congr 1; omega
  have hblk : ∀ {s : Nat} {ms : Map}, maps[s]? = some ms → ∀ (k : Nat) (q : Int), ms.ghostIndex[k]? = some q →
      ∃ (t b e : Nat), t < lens.length ∧ ms.ghostStart[t]? = some b ∧ ms.ghostStart[t + 1]? = some e ∧ b ≤ k ∧ k < e ∧
        Owns lens t q := by
    intro s ms hs k q hk
    have hkl := (List.getElem?_eq_some_iff.1 hk).1
    obtain ⟨t, ht, h1, h2⟩ := owns_exists (lens := ms.ghostSizes) (q := k) (by omega) (by rw [← hgl hs]; omega)
    have htl : t < lens.length := by rw [← hgsl hs]; exact ht
    obtain ⟨b, e, c1, c2, c3, c4, c5, c6, c7⟩ := hstarts hs t htl
    have c8 := (List.getElem?_eq_some_iff.1 c6).2
    rw [c8] at h2
    refine ⟨t, b, e, htl, c1, c2, by omega, by omega, hown hs t htl q ?_⟩
    have h3 := segment_getElem? ms.ghostIndex ms.ghostStart t b e (k - b) c1 c2 (by omega)
    rw [show b + (k - b) = k by omega, hk] at h3
    exact List.mem_of_getElem? h3
  refine ⟨hlen, ?_, ?_, hgsl, hgst, ?_, ?_, ?_, ?_, ?_, ?_⟩
  · intro r m hm
    obtain ⟨p, hp⟩ := hP hm
    exact (hall r m p hm hp).2.1
  · intro r m hm q ho
    obtain ⟨p, hp⟩ := hP hm
    obtain ⟨h1, h2, _⟩ := hall r m p hm hp
    obtain ⟨hr, o1, o2⟩ := ho
    have := (List.getElem?_eq_some_iff.1 h2).2
    simp only [Map.searchInMain, h1]
    rw [if_pos (by omega)]
  · intro s ms hs r hr
    obtain ⟨b, e, c1, c2, c3, c4, c5, c6, c7⟩ := hstarts hs r hr
    refine ⟨b, e, c1, c2, c3, c4, c5, c6, ?_⟩
    intro k q hk
    constructor
    · rintro ⟨h1, h2⟩
      have h3 := segment_getElem? ms.ghostIndex ms.ghostStart r b e (k - b) c1 c2 (by omega)
      rw [show b + (k - b) = k by omega, hk] at h3
      exact hown hs r hr q (List.mem_of_getElem? h3)
    · intro ho
      obtain ⟨t, b', e', d1, d2, d3, d4, d5, d6⟩ := hblk hs k q hk
      have := owns_unique ho d6
      subst this
      rw [c1] at d2; rw [c2] at d3; cases d2; cases d3
      exact ⟨d4, d5⟩
  · intro s ms hs
    have h1 := hgsl hs
    have h2 : ms.ghostStart.length = lens.length + 1 := by rw [hgst hs, plainStarts_length, h1]
    refine ⟨?_, by omega⟩
    rw [List.getLast?_eq_getElem?, h2, Nat.add_sub_cancel, hgst hs, plainStarts_get _ _ (by omega), ← h1,
      List.take_length, hgl hs]
  · intro s ms hs k q hk
    obtain ⟨t, _, _, _, _, _, _, _, h1⟩ := hblk hs k q hk
    exact ⟨t, h1⟩
  · intro r s mr ms hr hs
    obtain ⟨p, hp⟩ := hP hr
    obtain ⟨a1, a2, a3, a4⟩ := hagree r s mr ms p hr hs hp
    obtain ⟨_, _, h3, _, h5, _, h7, _, _, _⟩ := hall r mr p hr hp
    have hsl := (List.getElem?_eq_some_iff.1 hs).1
    obtain ⟨b, e, d1, d2, d3, d4, d5⟩ := h7 s (by omega)
    refine ⟨b, e - b, by rw [h3]; exact d1, d5, by rw [h5]; simp; omega, ?_⟩
    rw [← a2]
    simp only [segment, h3, d1, d2]
  · intro r s mr ms hr hs
    obtain ⟨p, hp⟩ := hP hr
    obtain ⟨a1, a2, a3, a4⟩ := hagree r s mr ms p hr hs hp
    rw [a3, a4]
  · intro r mr hr q hq
    obtain ⟨p, hp⟩ := hP hr
    obtain ⟨_, _, _, _, h5, _⟩ := hall r mr p hr hp
    rw [h5] at hq
    obtain ⟨l, hl, rfl⟩ := List.mem_map.1 hq
    obtain ⟨h1, n, h2, h3⟩ := hv r p hp l hl
    obtain ⟨h4, h6⟩ := List.getElem?_eq_some_iff.1 h2
    exact ⟨h4, by omega, by omega⟩

/-- the push constructor returns when the starts are those of a CSR list and the indices exist -/
theorem createPush_total {lens : List Nat} {g : GOM} (hg : Built lens g) (push : List (List Int × List Nat))
    (hn : push.length = lens.length) (hv : PushValid lens push)
    (hst : ∀ p ∈ push, ∃ sizes : List Nat, sizes.length = lens.length ∧ p.2 = plainStarts sizes ∧ p.1.length = sizes.sum) :
    ∃ maps, createPush g lens push = .ok maps := by
  have hloc : ∀ (r : Nat) (p : List Int × List Nat), push[r]? = some p → ∃ sizes glob,
      pushLocal g push.length r p.1 p.2 = .ok (sizes, glob) ∧ sizes.length = lens.length ∧
      p.2 = plainStarts sizes ∧ glob.length = sizes.sum := by
    intro r p hp
    have hr : r < lens.length := by rw [← hn]; exact (List.getElem?_eq_some_iff.1 hp).1
    obtain ⟨sizes, h1, h2, h3⟩ := hst p (List.mem_of_getElem? hp)
    have hsl : p.2.length = lens.length + 1 := by rw [h2, plainStarts_length, h1]
    have hlast : idx p.2 push.length = .ok p.1.length := by
      rw [idx_ok_iff, h2, hn, ← h1, plainStarts_get _ _ (by omega), List.take_length, h3]
    have hsz : forRanks (fun _ (x : Nat × Nat) => if x.1 ≤ x.2 then Res.ok (x.2 - x.1) else .ub) 0
        (p.2.zip p.2.tail) = .ok sizes := by
      rw [forRanks_ok]
      refine ⟨by rw [List.length_zip, List.length_tail, hsl, h1]; omega, ?_⟩
      intro i x hx
      rw [List.getElem?_zip_eq_some] at hx
      obtain ⟨hx1, hx2⟩ := hx
      rw [List.getElem?_tail] at hx2
      have hi : i < sizes.length := by
        have := (List.getElem?_eq_some_iff.1 hx2).1; omega
      obtain ⟨b, e, c1, c2, c3, _⟩ := plainStarts_block sizes i hi
      rw [h2] at hx1 hx2
      rw [c1] at hx1; rw [c2] at hx2
      cases hx1; cases hx2
      refine ⟨sizes[i], by simp [hi], ?_⟩
      rw [if_pos (by omega)]; congr 1; omega
    obtain ⟨glob, hglob⟩ : ∃ glob, forRanks (fun _ l => g.apply r l) 0 p.1 = .ok glob := by
      apply forRanks_total
      intro i l hl
      obtain ⟨v1, n, v2, v3⟩ := hv r p hp l (List.mem_of_getElem? hl)
      have := (List.getElem?_eq_some_iff.1 v2).2
      exact ⟨_, by rw [apply_eq hg r hr, if_pos (by omega)]⟩
    refine ⟨sizes, glob, ?_, h1, h2, ?_⟩
    · rw [pushLocal, Res.assert_true _ (by omega), Res.ok_bind, hlast, Res.ok_bind, Res.assert_true _ rfl, Res.ok_bind,
        hsz, Res.ok_bind, hglob, Res.ok_bind]
    · rw [((forRanks_ok _ _ _ _).1 hglob).1, h3]
  obtain ⟨locals, hlocals⟩ : ∃ locals, forRanks (fun r (p : List Int × List Nat) => pushLocal g push.length r p.1 p.2) 0
      push = .ok locals := by
    apply forRanks_total
    intro i p hp
    obtain ⟨s, gl, h1, _⟩ := hloc i p hp
    exact ⟨_, by rw [Nat.zero_add]; exact h1⟩
  obtain ⟨l1, l2⟩ := (forRanks_ok _ _ _ _).1 hlocals
  have hL : ∀ (r : Nat) (p : List Int × List Nat), push[r]? = some p → ∃ l, locals[r]? = some l ∧
      l.1.length = lens.length ∧ p.2 = plainStarts l.1 ∧ l.2.length = l.1.sum := by
    intro r p hp
    obtain ⟨s, gl, h1, h2, h3, h4⟩ := hloc r p hp
    obtain ⟨l, h5, h6⟩ := l2 r p hp
    rw [Nat.zero_add, h1] at h6
    cases h6
    exact ⟨_, h5, h2, h3, h4⟩
  simp only [createPush, hlocals, Res.ok_bind]
  apply forRanks_total
  intro r x hx
  rw [List.getElem?_zip_eq_some] at hx
  obtain ⟨hx1, hx2⟩ := hx
  have hr : r < lens.length := (List.getElem?_eq_some_iff.1 hx2).1
  rw [Nat.zero_add, apply_eq hg r hr, if_pos (by omega), Res.ok_bind]
  obtain ⟨gs, hgs⟩ : ∃ gs, alltoall (locals.map (·.1)) r = .ok gs := by
    apply forRanks_total
    intro i row hrow
    rw [List.getElem?_map] at hrow
    obtain ⟨l, hl, rfl⟩ := Option.map_eq_some_iff.1 hrow
    have hi : i < push.length := by
      have := (List.getElem?_eq_some_iff.1 hl).1; omega
    obtain ⟨l', a1, a2, a3, a4⟩ := hL i push[i] (by simp [hi])
    rw [hl] at a1; cases a1
    exact ⟨_, idx_ok _ _ (by omega)⟩
  rw [hgs, Res.ok_bind]
  obtain ⟨t1, t2⟩ := (forRanks_ok _ _ _ _).1 hgs
  have hb := recvBlocks_spec r ((locals.zip push).map (fun x => (x.1.2, x.1.1, (0 :: x.2.2.tail))))
    gs (plainStarts gs) 0 (by rw [t1]; simp; omega) (by rw [plainStarts_length]; omega)
    (by
      intro s y hy
      rw [List.getElem?_map] at hy
      obtain ⟨⟨ls, ps⟩, hz', rfl⟩ := Option.map_eq_some_iff.1 hy
      rw [List.getElem?_zip_eq_some] at hz'
      obtain ⟨hz1, hz2⟩ := hz'
      simp only at hz1 hz2
      obtain ⟨l', a1, a2, a3, a4⟩ := hL s ps hz2
      rw [hz1] at a1; cases a1
      obtain ⟨b, e, c1, c2, c3, c4, _⟩ := plainStarts_block ls.1 r (by omega)
      have hps : (0 :: ps.2.tail) = ps.2 := by
        rw [a3]
        have h0 := plainStarts_get ls.1 0 (by omega)
        cases hq : plainStarts ls.1 with
        | nil => rw [hq] at h0; simp at h0
        | cons u us => rw [hq] at h0; simp at h0; simp [h0]
      obtain ⟨v, hv1, hv2⟩ := t2 s ls.1 (by rw [List.getElem?_map, hz1]; rfl)
      rw [idx_ok_iff, List.getElem?_eq_getElem (by omega)] at hv2
      cases hv2
      refine ⟨ls.1[r]'(by omega), b, by simp, hv1, ?_, ?_⟩
      · show (0 :: ps.2.tail)[r]? = _
        rw [hps, a3]; exact c1
      · show b + _ ≤ ls.2.length
        omega)
    (by
      intro s hs
      rw [plainStarts_get _ _ (by omega), Nat.zero_add])
  exact ⟨_, by rw [hb, Res.ok_bind]⟩

/-- what a pull delivers over any linked mappings -/
theorem pull_links {ty : Ty} {lens : List Nat} {maps : List Map} (hm : Links lens maps) {types : List Types}
    {w2 : World α} (hwd : Wired ty lens maps w2 types) (order : List (Nat × Nat)) (ho : AllPairs lens.length order) :
    ∃ w3, pull types w2 order = .ok w3 ∧ w3.fathers = w2.fathers ∧ w3.sons.length = lens.length ∧
      ∀ (s : Nat) (ms : Map) (so : Arr.Array α), maps[s]? = some ms → w3.sons[s]? = some so →
        so.size = ms.ghostIndex.length ∧
        ∀ (k : Nat) (q : Int) (r : Nat) (fa : Arr.Array α), ms.ghostIndex[k]? = some q → Owns lens r q →
          w2.fathers[r]? = some fa → SameRow ty so k fa (ownRow lens r q) := by
  obtain ⟨w3, h1, h2, h3, h4⟩ := pull_spec hm order w2 hwd (fun p hp => (ho p).1 hp)
  refine ⟨w3, h1, h3, by rw [h2.sl]; exact hwd.sl, ?_⟩
  intro s ms so hms hso
  have hwd3 := hwd.shape h2
  obtain ⟨e1, e2⟩ := hwd3.so s so ms hso hms
  refine ⟨e2, ?_⟩
  intro k q r fa hk hq hfa
  obtain ⟨so2, hso2⟩ := get_of_len h2.sl hso
  have hs : s < lens.length := by
    have := (List.getElem?_eq_some_iff.1 hms).1
    rw [hm.len] at this; exact this
  have h5 := (h4 s r fa so2 so ms k q hfa hso2 hso hms hk hq).1 ((ho (r, s)).2 ⟨hq.1, hs⟩)
  have h6 := (hwd3.row r s fa so ms k q (by rw [h3]; exact hfa) hso hms hk hq).2
  obtain ⟨e3, e4⟩ := hwd.fa r fa hfa
  obtain ⟨e5, e6⟩ := locRow_lt hq _ e4
  have := sameRow_of e1 e3 k (locRow lens r q) (by
    have := (List.getElem?_eq_some_iff.1 hk).1; omega) e5 h6 h5
  rw [e6] at this
  exact this

/-- set-up and pull over linked mappings -/
theorem setup_pull_links {z : α} {ty : Ty} (u : Bool) {lens : List Nat} {maps : List Map} (hm : Links lens maps)
    (w : World α) (hw : Setup z ty lens w) (order : List (Nat × Nat)) (ho : AllPairs lens.length order) :
    createTypes z ty u maps w ≠ .ub ∧
    ∀ w1 types, createTypes z ty u maps w = .ok (w1, types) →
    ∃ w3, pull types w1 order = .ok w3 ∧ w3.fathers = w1.fathers ∧ w3.sons.length = lens.length ∧
      (∀ (r : Nat) (fa : Arr.Array α), w.fathers[r]? = some fa → ∃ fa', w1.fathers[r]? = some fa' ∧
        fa'.size = fa.size ∧ ∀ i : Nat, i < fa.size → SameRow ty fa' i fa i) ∧
      ∀ (s : Nat) (ms : Map) (so : Arr.Array α), maps[s]? = some ms → w3.sons[s]? = some so →
        so.size = ms.ghostIndex.length ∧
        ∀ (k : Nat) (q : Int) (r : Nat) (fa : Arr.Array α), ms.ghostIndex[k]? = some q → Owns lens r q →
          w.fathers[r]? = some fa → SameRow ty so k fa (ownRow lens r q) := by
  have hr := setup_ready hw
  obtain ⟨f, so, hfl, hsl, hval, hres⟩ := createTypes_spec z u hm hr
  constructor
  · rcases hres with ⟨h1, _⟩ | ⟨t, h1, _⟩ <;> rw [h1] <;> simp
  intro w1 types hc
  rcases hres with ⟨h1, _⟩ | ⟨t, h1, h2⟩
  · rw [h1] at hc; cases hc
  rw [h1] at hc; cases hc
  have hfa' : ∀ (r : Nat) (fa : Arr.Array α), w.fathers[r]? = some fa → ∃ fa', f[r]? = some fa' ∧
        fa'.size = fa.size ∧ ∀ i : Nat, i < fa.size → SameRow ty fa' i fa i := by
    intro r fa hfa
    obtain ⟨fa', e1, e2, e3, _⟩ := hval r fa hfa
    refine ⟨fa', e1, e3, ?_⟩
    intro i hi
    have ia := (hr.fa r fa hfa).1
    have ib := (h2.fa r fa' e1).1.inv
    obtain ⟨row, h3, h4⟩ := rowSize_eq ia i hi
    have h5 : (rowsOf ty fa')[i]? = some row := by
      rw [← h3]; exact congrArg (fun v : Val α => v.rows[i]?) e2
    obtain ⟨h6, h7⟩ := read_of_row_eq ib ia i i row h5 h3
    exact ⟨⟨_, by rw [h6]; exact h4, h4⟩, h7⟩
  obtain ⟨w3, p1, p2, p3, p4⟩ := pull_links hm h2 order ho
  refine ⟨w3, p1, p2, p3, hfa', ?_⟩
  intro s ms so' hms hso
  obtain ⟨q1, q2⟩ := p4 s ms so' hms hso
  refine ⟨q1, ?_⟩
  intro k q r fa hk hq hfa
  obtain ⟨fa', g1, g2, g3⟩ := hfa' r fa hfa
  have h3 := q2 k q r fa' hk hq g1
  obtain ⟨i1, i2⟩ := hr.fa r fa hfa
  obtain ⟨l1, l2⟩ := locRow_lt hq _ i2
  have h4 := g3 _ l1
  rw [l2] at h4
  obtain ⟨⟨n1, a1, a2⟩, a3⟩ := h3
  obtain ⟨⟨n2, b1, b2⟩, b3⟩ := h4
  refine ⟨⟨n1, a1, ?_⟩, fun j => (a3 j).trans (b3 j)⟩
  unfold ownRow at a2 ⊢
  rw [a2] at b1
  rw [b2]; exact b1.symm

end DNDSR.Tran
