import Verif.Spec.MeshAdj
import Verif.Props.IndexMapping
import Verif.Proof.TransPush

namespace DNDSR.MeshAdj

open DNDSR.IMap DNDSR.Part DNDSR.Tran

theorem uniqueGo_sorted : ∀ (l : List Int) (p : Int), (∀ x ∈ l, p < x) → l.Pairwise (· < ·) → uniqueGo p l = l := by
  intro l
  induction l with
  | nil => intro p _ _; rfl
  | cons x xs ih =>
    intro p h hp
    have h1 := h x (by simp)
    have h2 := List.pairwise_cons.1 hp
    rw [uniqueGo, if_neg (by omega), ih x h2.1 h2.2]

theorem unique_sorted (l : List Int) (h : l.Pairwise (· < ·)) : unique (sortIdx l) = l := by
  rw [sortIdx_of_sorted l (h.imp (by intro a b h; omega))]
  cases l with
  | nil => rfl
  | cons x xs =>
    have h2 := List.pairwise_cons.1 h
    rw [unique, uniqueGo_sorted xs x h2.1 h2.2]

/-- what both constructors guarantee of a mapping -/
structure Faithful (lens : List Nat) (r : Nat) (m : Map) : Prop where
  loc : LocalOk lens m.ghostIndex m.loc
  off : m.mainOffset = before lens r
  size : lens[r]? = some m.mainSize

theorem Faithful.of_pull {lens : List Nat} {reqs : List (List Int)} {maps : List Map} {r : Nat} {m : Map}
    (h : MapOk lens reqs maps r m) : Faithful lens r m := by
  obtain ⟨req, _, hl⟩ := h.req
  have hgi : m.ghostIndex = unique (sortIdx req) := hl.gi
  have hs : m.ghostIndex.Pairwise (· < ·) := hl.sorted
  refine ⟨⟨?_, hl.st, ?_, ?_⟩, h.off, h.size⟩
  · rw [unique_sorted _ hs]
    exact hgi ▸ hl.sizes
  · rw [unique_sorted _ hs]; rfl
  · intro q hq
    exact hl.range q ((hl.mem q).1 hq)

theorem pairwise_flatten_segs {lens : List Nat} : ∀ (L : List (List Int)) (b : Nat),
    (∀ (i : Nat) (seg : List Int), L[i]? = some seg → seg.Pairwise (· < ·) ∧ ∀ q ∈ seg, Owns lens (b + i) q) →
    L.flatten.Pairwise (· < ·) ∧ ∀ q ∈ L.flatten, ∃ i, b ≤ i ∧ Owns lens i q := by
  intro L
  induction L with
  | nil => intro b _; simp
  | cons s L ih =>
    intro b h
    obtain ⟨h1, h2⟩ := h 0 s rfl
    obtain ⟨i1, i2⟩ := ih (b + 1) (by
      intro i seg hi
      obtain ⟨a, c⟩ := h (i + 1) seg (by simpa using hi)
      refine ⟨a, fun q hq => ?_⟩
      have := c q hq
      rw [show b + 1 + i = b + (i + 1) by omega]; exact this)
    rw [List.flatten_cons]
    constructor
    · rw [List.pairwise_append]
      refine ⟨h1, i1, ?_⟩
      intro a ha c hc
      obtain ⟨hb, h3, h4⟩ := h2 a ha
      obtain ⟨i, hi, hi2, h5, h6⟩ := i2 c hc
      have e := before_succ lens (b + 0) hb
      have := before_mono lens (show b + 0 + 1 ≤ i by omega)
      omega
    · intro q hq
      rcases List.mem_append.1 hq with hq | hq
      · exact ⟨b, by omega, by simpa using h2 q hq⟩
      · obtain ⟨i, hi, ho⟩ := i2 q hq
        exact ⟨i, by omega, ho⟩

theorem segment_map_pairwise (p : List Int × List Nat) (s : Nat) (c : Int)
    (h : (segment p.1 p.2 s).Pairwise (· < ·)) :
    ((segment p.1 p.2 s).map (fun l => c + l)).Pairwise (· < ·) := by
  rw [List.pairwise_map]
  exact h.imp (by intro a b h; omega)

theorem owns_iff_cnt {lens : List Nat} (r : Nat) (hr : r < lens.length) (q : Int) :
    Owns lens r q ↔ (before lens r : Int) ≤ q ∧ q < before lens (r + 1) := by
  have := before_succ lens r hr
  constructor
  · rintro ⟨_, a, b⟩; exact ⟨a, by omega⟩
  · rintro ⟨a, b⟩; exact ⟨hr, a, by omega⟩

theorem cnt_flatten {lens : List Nat} : ∀ (L : List (List Int)) (b : Nat), b + L.length ≤ lens.length →
    (∀ (i : Nat) (seg : List Int), L[i]? = some seg → ∀ q ∈ seg, Owns lens (b + i) q) →
    ∀ r, r < lens.length → cnt lens L.flatten r = if r < b then 0 else (L[r - b]?.map List.length).getD 0 := by
  intro L
  induction L with
  | nil => intro b _ _ r _; simp [cnt]
  | cons s L ih =>
    intro b hb h r hr
    have hih := ih (b + 1) (by simp at hb; omega) (by
      intro i seg hi q hq
      have := h (i + 1) seg (by simpa using hi) q hq
      rw [show b + 1 + i = b + (i + 1) by omega]; exact this) r hr
    have hs := h 0 s rfl
    have e1 : cnt lens (s :: L).flatten r = cnt lens s r + cnt lens L.flatten r := by
      simp [cnt, List.countP_append]
    rw [e1, hih]
    have e2 : cnt lens s r = if r = b then s.length else 0 := by
      by_cases hrb : r = b
      · subst hrb
        rw [if_pos rfl, cnt, List.countP_eq_length]
        intro q hq
        have := (owns_iff_cnt r hr q).1 (by simpa using hs q hq)
        simpa using this
      · rw [if_neg hrb, cnt, List.countP_eq_zero]
        intro q hq hc
        have h1 : Owns lens r q := (owns_iff_cnt r hr q).2 (by simpa using hc)
        exact hrb (owns_unique h1 (by simpa using hs q hq))
    rw [e2]
    by_cases hrb : r = b
    · subst hrb; simp
    · rw [if_neg hrb]
      by_cases h1 : r < b
      · rw [if_pos (by omega), if_pos h1]
      · rw [if_neg (by omega), if_neg h1, show r - b = (r - (b + 1)) + 1 by omega]; simp

theorem Faithful.of_push {lens : List Nat} {g : GOM} (hg : Built lens g) (push : List (List Int × List Nat))
    (hn : push.length = lens.length) (hz : ∀ p ∈ push, p.2[0]? = some 0) (hv : PushValid lens push)
    (ha : ∀ p ∈ push, ∀ s, (segment p.1 p.2 s).Pairwise (· < ·))
    (maps : List Map) (h : createPush g lens push = .ok maps) (r : Nat) (m : Map) (hm : maps[r]? = some m) :
    Faithful lens r m := by
  obtain ⟨hlen, hall⟩ := createPush_spec hg push hn hz maps h
  have hP : ∀ {r : Nat} {m : Map}, maps[r]? = some m → ∃ p, push[r]? = some p := by
    intro r m hm
    have : r < push.length := by
      have := (List.getElem?_eq_some_iff.1 hm).1; omega
    exact ⟨push[r], by simp [this]⟩
  obtain ⟨p, hp⟩ := hP hm
  obtain ⟨h1, h2, h3, h4, h5, h6, h7, h8, h9, h10⟩ := hall r m p hm hp
  have hsegs : ∀ (t : Nat) (seg : List Int),
      (maps.map (fun ms => segment ms.pushingIndexGlobal ms.pushIndexStarts r))[t]? = some seg →
      (seg.Pairwise (· < ·) ∧ ∀ q ∈ seg, Owns lens (0 + t) q) ∧ ∃ mt, maps[t]? = some mt ∧
        mt.pushIndexSizes[r]? = some seg.length := by
    intro t seg hseg
    rw [List.getElem?_map] at hseg
    cases hmt : maps[t]? with
    | none => rw [hmt] at hseg; cases hseg
    | some mt =>
      rw [hmt] at hseg
      simp only [Option.map_some, Option.some.injEq] at hseg
      obtain ⟨q, hq⟩ := hP hmt
      obtain ⟨a1, a2, a3, a4⟩ := push_constructed_agree hg push hn hz maps h t r mt m q hmt hm hq
      rw [a2, a1] at hseg
      subst hseg
      refine ⟨⟨segment_map_pairwise _ _ _ (ha q (List.mem_of_getElem? hq) r), ?_⟩, mt, rfl, by simpa using a3⟩
      intro x hx
      obtain ⟨l, hl, rfl⟩ := List.mem_map.1 hx
      have hlm : l ∈ q.1 := by
        simp only [segment] at hl
        split at hl
        · exact List.mem_of_mem_drop (List.mem_of_mem_take hl)
        · simp at hl
      obtain ⟨b1, n, b2, b3⟩ := hv t q hq l hlm
      obtain ⟨b4, b5⟩ := List.getElem?_eq_some_iff.1 b2
      rw [Nat.zero_add]
      exact ⟨b4, by omega, by omega⟩
  have hpw := pairwise_flatten_segs (lens := lens) _ 0 (fun i seg hi => (hsegs i seg hi).1)
  rw [← h10] at hpw
  have hgs : m.ghostIndex.Pairwise (· < ·) := hpw.1
  refine ⟨⟨?_, h9, ?_, ?_⟩, h1, h2⟩
  · rw [unique_sorted _ hgs]
    apply List.ext_getElem?
    intro t
    show m.ghostSizes[t]? = _
    by_cases ht : t < lens.length
    · obtain ⟨seg, hseg⟩ : ∃ seg, (maps.map (fun ms => segment ms.pushingIndexGlobal ms.pushIndexStarts r))[t]? = some seg :=
        ⟨_, List.getElem?_eq_getElem (by simp; omega)⟩
      obtain ⟨_, mt, hmt, hsz⟩ := hsegs t seg hseg
      rw [List.getElem?_map, List.getElem?_range ht, h8, List.getElem?_map, hmt]
      simp only [Option.map_some, hsz, Option.getD_some]
      rw [h10, cnt_flatten (lens := lens) _ 0 (by simp; omega) (fun i seg hi => (hsegs i seg hi).1.2) t ht]
      rw [if_neg (by omega), Nat.sub_zero, hseg]; rfl
    · rw [List.getElem?_eq_none (by rw [h8]; simp; omega), List.getElem?_eq_none (by simp; omega)]
  · rw [unique_sorted _ hgs]; rfl
  · intro q hq
    obtain ⟨i, _, ho⟩ := hpw.2 q hq
    exact owns_range ho

theorem Collective.faithful {lens : List Nat} {r : Nat} {m : Map} (h : Collective lens r m) : Faithful lens r m := by
  cases h with
  | pull g reqs maps hg hn h hm => exact .of_pull ((createPull_spec hg reqs hn maps h).2 r m hm)
  | push g lists maps hg hn hz hv ha h hm => exact .of_push hg lists hn hz hv ha maps h r m hm

namespace Faithful

variable {lens : List Nat} {r : Nat} {m : Map}

theorem owns_iff (h : Faithful lens r m) (q : Int) :
    Owns lens r q ↔ (before lens r : Int) ≤ q ∧ q < before lens r + m.mainSize := by
  obtain ⟨h1, h2⟩ := List.getElem?_eq_some_iff.1 h.size
  constructor
  · rintro ⟨_, a, b⟩; rw [h2] at b; exact ⟨a, b⟩
  · rintro ⟨a, b⟩; exact ⟨h1, a, by rw [h2]; exact b⟩

theorem searchAppend (h : Faithful lens r m) (q : Int) :
    (Owns lens r q ∧ m.searchAppend q = .ok (some (-1, q - before lens r))) ∨
    (¬ Owns lens r q ∧ ∃ (k o : Nat), m.ghostIndex[k]? = some q ∧ m.searchAppend q = .ok (some (o, m.mainSize + k))) ∨
    (¬ Owns lens r q ∧ q ∉ m.ghostIndex ∧ m.searchAppend q = .ok none) := by
  obtain ⟨s1, s2⟩ := searchInAllGhost_spec h.loc q
  have hmain : m.searchInMain q = if (before lens r : Int) ≤ q ∧ q < before lens r + m.mainSize
      then some (q - before lens r) else none := by
    simp only [Map.searchInMain, h.off]
    by_cases hc : (before lens r : Int) ≤ q ∧ q < before lens r + m.mainSize
    · rw [if_pos hc, if_pos (by omega)]
    · rw [if_neg hc, if_neg (by omega)]
  by_cases ho : Owns lens r q
  · refine Or.inl ⟨ho, ?_⟩
    rw [if_pos ((h.owns_iff q).1 ho)] at hmain
    simp only [Map.searchAppend, hmain]
  · rw [if_neg (fun hc => ho ((h.owns_iff q).2 hc))] at hmain
    by_cases hq : q ∈ m.ghostIndex
    · obtain ⟨k, hk, hkq⟩ := List.mem_iff_getElem.1 hq
      have hkq' : m.ghostIndex[k]? = some q := by rw [List.getElem?_eq_getElem hk, hkq]
      obtain ⟨h1, h2⟩ := h.loc.range q hq
      obtain ⟨o, ho'⟩ := owns_exists h1 h2
      refine Or.inr (Or.inl ⟨ho, k, o, hkq', ?_⟩)
      simp only [Map.searchAppend, hmain, s2 k hkq' o ho', Res.ok_bind]
      congr 3; omega
    · refine Or.inr (Or.inr ⟨ho, hq, ?_⟩)
      simp only [Map.searchAppend, hmain, s1 hq, Res.ok_bind]

theorem apply_main (h : Faithful lens r m) (v : Int) :
    m.apply (-1) v = if 0 ≤ v ∧ v < m.mainSize + m.ghostIndex.length then
      .ok (if v < m.mainSize then before lens r + v else m.ghostIndex[(v - m.mainSize).toNat]?.getD 0)
      else .abort := by
  have hl := h.loc
  have hlast : m.ghostStart.getLast? = some m.ghostIndex.length := by
    have h1 : m.ghostStart[lens.length]? = some m.ghostIndex.length := hl.start_last
    have h2 : m.ghostStart.length = lens.length + 1 := hl.start_length
    rw [List.getLast?_eq_getElem?, h2]; exact h1
  simp only [Map.apply, if_true, hlast]
  by_cases h0 : 0 ≤ v
  · rw [Res.assert_true _ h0, Res.ok_bind]
    by_cases h1 : v < m.mainSize
    · rw [if_pos h1, if_pos (by omega), if_pos h1, h.off, Int.add_comm]
    · rw [if_neg h1]
      by_cases h2 : v < m.mainSize + m.ghostIndex.length
      · rw [Res.assert_true _ (by omega), Res.ok_bind, if_pos (by omega), if_neg h1]
        rw [List.getElem?_eq_getElem (by omega)]; rfl
      · rw [if_neg (by omega)]
        simp only [Res.assert]
        rw [if_neg (by omega)]; rfl
  · have hc : ¬ (0 ≤ v ∧ v < m.mainSize + m.ghostIndex.length) := by omega
    rw [if_neg hc]
    simp only [Res.assert]
    rw [if_neg h0]; rfl

/-- the two conversions in closed form -/
theorem global2Local_eq (h : Faithful lens r m) (q : Int) (hu : q ≠ unInit) :
    ∃ v, global2Local m q = .ok v ∧ LocalName lens r m.ghostIndex q v := by
  rw [global2Local, if_neg hu]
  rcases h.searchAppend q with ⟨ho, e⟩ | ⟨ho, k, o, hk, e⟩ | ⟨ho, hq, e⟩
  · exact ⟨_, by rw [e]; rfl, Or.inl ⟨ho, rfl⟩⟩
  · exact ⟨_, by rw [e]; rfl, Or.inr (Or.inl ⟨ho, k, hk, _, h.size, rfl⟩)⟩
  · exact ⟨_, by rw [e]; rfl, Or.inr (Or.inr ⟨ho, hq, rfl⟩)⟩

theorem mustFind_eq (h : Faithful lens r m) (q : Int) :
    (∃ v, mustFind m q = .ok v ∧ 0 ≤ v ∧ LocalName lens r m.ghostIndex q v ∧ (Owns lens r q ∨ q ∈ m.ghostIndex)) ∨
    (¬ Owns lens r q ∧ q ∉ m.ghostIndex ∧ mustFind m q = .abort) := by
  rw [mustFind]
  rcases h.searchAppend q with ⟨ho, e⟩ | ⟨ho, k, o, hk, e⟩ | ⟨ho, hq, e⟩
  · refine Or.inl ⟨_, by rw [e]; rfl, ?_, Or.inl ⟨ho, rfl⟩, Or.inl ho⟩
    obtain ⟨_, a, _⟩ := ho; omega
  · exact Or.inl ⟨_, by rw [e]; rfl, by omega, Or.inr (Or.inl ⟨ho, k, hk, _, h.size, rfl⟩), Or.inr (List.mem_of_getElem? hk)⟩
  · exact Or.inr ⟨ho, hq, by rw [e]; rfl⟩

/-- a nonnegative local name leads back to its entry -/
theorem apply_of_name (h : Faithful lens r m) {q v : Int} (hn : LocalName lens r m.ghostIndex q v) (hq : 0 ≤ q) (hv : 0 ≤ v) :
    m.apply (-1) v = .ok q := by
  rw [h.apply_main]
  rcases hn with ⟨ho, e⟩ | ⟨ho, k, hk, n, hsz, e⟩ | ⟨_, _, e⟩
  · obtain ⟨a, b⟩ := (h.owns_iff q).1 ho
    rw [if_pos (by omega), if_pos (by omega)]
    congr 1; omega
  · rw [h.size] at hsz; cases hsz
    have hkl := (List.getElem?_eq_some_iff.1 hk).1
    rw [if_pos (by omega), if_neg (by omega), show (v - m.mainSize).toNat = k by omega, hk]; rfl
  · omega

/-- a local name is negative only for an entry without a copy -/
theorem name_neg {q v : Int} (hn : LocalName lens r m.ghostIndex q v) (hv : v < 0) : v = -1 - q := by
  rcases hn with ⟨ho, e⟩ | ⟨ho, k, hk, n, hsz, e⟩ | ⟨_, _, e⟩
  · obtain ⟨_, a, _⟩ := ho; omega
  · omega
  · exact e

theorem name_unInit {q v : Int} (hf : Fits lens) (hq : Global lens q)
    (hn : LocalName lens r m.ghostIndex q v) : v ≠ unInit := by
  intro hv
  have := name_neg hn (by rw [hv]; decide)
  simp only [unInit, Fits, Global] at *
  omega

theorem local2Global_of_name (h : Faithful lens r m) (hf : Fits lens) {q v : Int} (hq : Global lens q)
    (hn : LocalName lens r m.ghostIndex q v) : local2Global m v = .ok q := by
  rw [local2Global, if_neg (name_unInit hf hq hn)]
  by_cases hv : v < 0
  · rw [if_pos hv, name_neg hn hv]; congr 1; omega
  · rw [if_neg hv]; exact h.apply_of_name hn hq.1 (by omega)

theorem name_unique (h : Faithful lens r m) {q v w : Int} (hv : LocalName lens r m.ghostIndex q v)
    (hw : LocalName lens r m.ghostIndex q w) : v = w := by
  rcases hv with ⟨a1, a2⟩ | ⟨a1, k, a2, n, a3, a4⟩ | ⟨a1, a2, a3⟩ <;>
    rcases hw with ⟨b1, b2⟩ | ⟨b1, k', b2, n', b3, b4⟩ | ⟨b1, b2, b3⟩
  · omega
  · exact absurd a1 b1
  · exact absurd a1 b1
  · exact absurd b1 a1
  · rw [h.size] at a3 b3; cases a3; cases b3
    have hs : m.ghostIndex.Pairwise (· < ·) := h.loc.sorted
    have : k = k' := by
      obtain ⟨c1, c2⟩ := List.getElem?_eq_some_iff.1 a2
      obtain ⟨d1, d2⟩ := List.getElem?_eq_some_iff.1 b2
      rcases Nat.lt_trichotomy k k' with hlt | heq | hgt
      · have := List.pairwise_iff_getElem.1 hs k k' c1 d1 hlt; omega
      · exact heq
      · have := List.pairwise_iff_getElem.1 hs k' k d1 c1 hgt; omega
    omega
  · exact absurd (List.mem_of_getElem? a2) b2
  · exact absurd b1 a1
  · exact absurd (List.mem_of_getElem? b2) a2
  · omega

end Faithful

/-! ### running over rows -/

theorem forRanks_roundtrip {α β : Type} (f : Nat → α → Res β) (f' : Nat → β → Res α) (l : List α) (l' : List β) (r : Nat)
    (h : forRanks f r l = .ok l') (hb : ∀ (i : Nat) (x : α) (y : β), l[i]? = some x → f (r + i) x = .ok y → f' (r + i) y = .ok x) :
    forRanks f' r l' = .ok l := by
  obtain ⟨h1, h2⟩ := (forRanks_ok _ _ _ _).1 h
  refine (forRanks_ok _ _ _ _).2 ⟨h1.symm, ?_⟩
  intro i y hy
  have hi : i < l.length := by
    have := (List.getElem?_eq_some_iff.1 hy).1; omega
  obtain ⟨y', e1, e2⟩ := h2 i l[i] (by simp [hi])
  rw [hy] at e1; cases e1
  exact ⟨l[i], by simp [hi], hb i _ _ (by simp [hi]) e2⟩

theorem mapRows_roundtrip (f f' : Nat → Int → Res Int) (rows rows' : List (List Int)) (h : mapRows f rows = .ok rows')
    (hb : ∀ row ∈ rows, ∀ (j : Nat) (x y : Int), row[j]? = some x → f j x = .ok y → f' j y = .ok x) :
    mapRows f' rows' = .ok rows := by
  apply forRanks_roundtrip _ _ _ _ _ h
  intro i row row' hi hr
  apply forRanks_roundtrip _ _ _ _ _ hr
  intro j x y hx hy
  rw [Nat.zero_add] at hy ⊢
  exact hb row (List.mem_of_getElem? hi) j x y hx hy

theorem mapRows_rel (f : Nat → Int → Res Int) (R : Int → Int → Prop) (rows rows' : List (List Int))
    (h : mapRows f rows = .ok rows')
    (hb : ∀ row ∈ rows, ∀ (j : Nat) (x y : Int), row[j]? = some x → f j x = .ok y → R x y) :
    RowsRel R rows rows' := by
  obtain ⟨h1, h2⟩ := (forRanks_ok _ _ _ _).1 h
  refine ⟨h1.symm, ?_⟩
  intro i x y hx hy
  obtain ⟨y', e1, e2⟩ := h2 i x hx
  rw [hy] at e1; cases e1
  obtain ⟨h3, h4⟩ := (forRanks_ok _ _ _ _).1 e2
  refine ⟨h3.symm, ?_⟩
  intro j u v hu hv
  obtain ⟨v', e3, e4⟩ := h4 j u hu
  rw [hv] at e3; cases e3
  exact hb x (List.mem_of_getElem? hx) j u v hu (by simpa using e4)

theorem mapRows_total (f : Nat → Int → Res Int) (rows : List (List Int))
    (hb : ∀ row ∈ rows, ∀ (j : Nat) (x : Int), row[j]? = some x → ∃ y, f j x = .ok y) :
    ∃ rows', mapRows f rows = .ok rows' := by
  apply forRanks_total
  intro i row hi
  apply forRanks_total
  intro j x hx
  simpa using hb row (List.mem_of_getElem? hi) j x hx

theorem mapRows_entry (f : Nat → Int → Res Int) (rows rows' : List (List Int)) (h : mapRows f rows = .ok rows')
    (row : List Int) (hrow : row ∈ rows) (j : Nat) (x : Int) (hx : row[j]? = some x) : ∃ y, f j x = .ok y := by
  obtain ⟨i, hi, hr⟩ := List.mem_iff_getElem.1 hrow
  obtain ⟨_, h2⟩ := (forRanks_ok _ _ _ _).1 h
  obtain ⟨row', _, e⟩ := h2 i row (by rw [List.getElem?_eq_getElem hi, hr])
  obtain ⟨_, h4⟩ := (forRanks_ok _ _ _ _).1 e
  obtain ⟨y, _, e2⟩ := h4 j x hx
  exact ⟨y, by simpa using e2⟩

end DNDSR.MeshAdj
