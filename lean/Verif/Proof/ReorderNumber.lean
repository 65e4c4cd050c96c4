import Verif.Proof.ReorderMove

/-!
# The new numbers of all ranks
-/

namespace DNDSR.Reorder

open DNDSR.IMap DNDSR.MeshAdj DNDSR.Faces DNDSR.Ghost DNDSR.Elem

theorem list_of {α : Type} {P : Nat → α → Prop} : ∀ (n : Nat), (∀ r < n, ∃ a, P r a) → ∃ l : List α, l.length = n ∧ ∀ (r : Nat) (a : α), l[r]? = some a → P r a
  | 0, _ => ⟨[], rfl, by simp⟩
  | n + 1, h => by
      obtain ⟨l, h1, h2⟩ := list_of n (fun r hr => h r (by omega))
      obtain ⟨a, ha⟩ := h n (by omega)
      refine ⟨l ++ [a], by simp [h1], fun r b hb => ?_⟩
      by_cases hr : r < l.length
      · rw [List.getElem?_append_left hr] at hb
        exact h2 r b hb
      · rw [List.getElem?_append_right (by omega)] at hb
        obtain ⟨k, hk⟩ : ∃ k, r - l.length = k := ⟨_, rfl⟩
        rw [hk] at hb
        cases k with
        | zero =>
          simp only [List.getElem?_cons_zero, Option.some.injEq] at hb
          subst hb
          rw [show r = n by omega]
          exact ha
        | succ k => simp at hb

theorem at_some {α : Type} {l : List α} {r : Nat} (h : r < l.length) : ∃ a, l[r]? = some a := ⟨_, List.getElem?_eq_getElem h⟩

theorem some_lt {α : Type} {l : List α} {r : Nat} {a : α} (h : l[r]? = some a) : r < l.length := (List.getElem?_eq_some_iff.1 h).1

theorem entry_at {l : List Int} {k : Nat} (h : k < l.length) : RCM.atI l (k : Int) = .ok (RCM.entry l k) := by
  rw [RCM.atI, RCM.entry, if_pos (by omega), if_pos (by omega), Int.toNat_natCast, List.getElem?_eq_getElem h, List.getD_eq_getElem _ _ h]

theorem lens_of {ps : List Piece} {r : Nat} {p : Piece} (hp : ps[r]? = some p) : (cellLens ps)[r]? = some p.cells.length := by
  rw [cellLens, List.getElem?_map, hp]; rfl

theorem newNumbers_run {lens : List Nat} {g : GOM} (hg : Built lens g) {r n : Nat} (hn : lens[r]? = some n) {o : RCM.Order}
    (ho : RCM.Inverse n o.new2Old o.old2New) : ∃ t, newNumbers g r n o = .ok t ∧ t.length = n ∧
      (∀ k, k < n → t[k]? = some (before lens r + RCM.entry o.old2New k)) ∧ t.Nodup ∧ ∀ c ∈ t, Owns lens r c := by
  obtain ⟨i1, i2, i3⟩ := ho
  obtain ⟨hr, en⟩ := List.getElem?_eq_some_iff.1 hn
  obtain ⟨t, e, l, h⟩ := N2C.forRanks_all (fun i (_ : Unit) => do
      let v ← RCM.atI o.old2New i
      local2GlobalNoSon g r n v)
    (fun i _ v => v = before lens r + RCM.entry o.old2New i) (List.replicate n ()) (by
      intro i u hu
      have hi : i < n := by simpa using some_lt hu
      obtain ⟨_, h0, h1, _⟩ := i3 i (by omega) (by omega)
      exact ⟨_, by rw [entry_at (by omega), Res.ok_bind, toGlobal_own hg hn h0 h1], rfl⟩)
  rw [List.length_replicate] at l
  have hk : ∀ k, k < n → t[k]? = some (before lens r + RCM.entry o.old2New k) := by
    intro k hk
    have hk' : k < t.length := by omega
    rw [List.getElem?_eq_getElem hk', h k () _ (by rw [List.getElem?_replicate, if_pos hk]) (List.getElem?_eq_getElem hk')]
  refine ⟨t, e, l, hk, ?_, ?_⟩
  · rw [List.nodup_iff_getElem?_ne_getElem?]
    intro i j hij hj e
    rw [hk i (by omega), hk j (by omega)] at e
    have e := Option.some.inj e
    obtain ⟨_, _, _, e1⟩ := i3 i (by omega) (by omega)
    obtain ⟨_, _, _, e2⟩ := i3 j (by omega) (by omega)
    rw [show RCM.entry o.old2New (i : Int) = RCM.entry o.old2New (j : Int) by omega, e2] at e1
    omega
  · intro c hc
    obtain ⟨k, hc⟩ := List.mem_iff_getElem?.1 hc
    have hkn : k < n := by rw [← l]; exact some_lt hc
    rw [hk k hkn] at hc
    obtain ⟨_, h0, h1, _⟩ := i3 k (by omega) (by omega)
    have hc := Option.some.inj hc
    exact ⟨hr, by omega, by rw [en]; omega⟩

/-- the new number of a cell -/
def newOf (o2n : List (List Int)) (c : Int) : Int := (o2n.flatten[c.toNat]?).getD 0

/-- the pieces with their cells in the new order -/
def piecesOf (ps : List Piece) (css : List (List Cell)) : List Piece := (ps.zip css).map (fun z => { z.1 with cells := z.2 })

theorem piecesOf_at {ps : List Piece} {css : List (List Cell)} {r : Nat} {p : Piece} {cs : List Cell} (hp : ps[r]? = some p) (hc : css[r]? = some cs) :
    (piecesOf ps css)[r]? = some { p with cells := cs } := by
  have hz : (ps.zip css)[r]? = some (p, cs) := List.getElem?_zip_eq_some.2 ⟨hp, hc⟩
  rw [piecesOf, List.getElem?_map, hz]; rfl

/-- what renumbering the ranks comes to -/
structure Numbering (ps : List Piece) (g : GOM) (orders : List RCM.Order) (o2n : List (List Int)) (css : List (List Cell)) : Prop where
  lens : o2n.map List.length = cellLens ps
  olen : orders.length = ps.length
  nodup : ∀ (r : Nat) (t : List Int), o2n[r]? = some t → t.Nodup
  owns : ∀ (r : Nat) (t : List Int), o2n[r]? = some t → ∀ c ∈ t, Owns (cellLens ps) r c
  inverse : ∀ (r : Nat) (p : Piece) (o : RCM.Order), ps[r]? = some p → orders[r]? = some o → RCM.Inverse p.cells.length o.new2Old o.old2New
  entries : ∀ (r : Nat) (p : Piece) (o : RCM.Order) (t : List Int), ps[r]? = some p → orders[r]? = some o → o2n[r]? = some t →
    ∀ k, k < p.cells.length → t[k]? = some (before (cellLens ps) r + RCM.entry o.old2New k)
  cellsLen : css.length = ps.length
  cells : ∀ (r : Nat) (p : Piece) (t : List Int) (cs : List Cell), ps[r]? = some p → o2n[r]? = some t → css[r]? = some cs →
    place g r t p.cells p.cells = .ok cs

theorem numbering_exists {ps : List Piece} {g : GOM} (hg : Built (cellLens ps) g) {orders : List RCM.Order} (ho : orders.length = ps.length)
    (hi : ∀ (r : Nat) (p : Piece) (o : RCM.Order), ps[r]? = some p → orders[r]? = some o → RCM.Inverse p.cells.length o.new2Old o.old2New)
    {ss : List St} (hs : ss.map (·.nCell) = cellLens ps) :
    ∃ o2n css, forRanks (fun r (x : St × RCM.Order) => newNumbers g r x.1.nCell x.2) 0 (ss.zip orders) = .ok o2n ∧ Numbering ps g orders o2n css := by
  have hsl : ss.length = ps.length := by
    have := congrArg List.length hs; simpa [cellLens] using this
  have hsn : ∀ (r : Nat) (s : St) (p : Piece), ss[r]? = some s → ps[r]? = some p → s.nCell = p.cells.length := by
    intro r s p h1 h2
    have := congrArg (·[r]?) hs
    simp only [List.getElem?_map, h1, lens_of h2, Option.map_some] at this
    exact Option.some.inj this
  obtain ⟨o2n, e, l, h⟩ := N2C.forRanks_all (fun r (x : St × RCM.Order) => newNumbers g r x.1.nCell x.2)
    (fun r x t => ∀ p, ps[r]? = some p → t.length = p.cells.length ∧
      (∀ k, k < p.cells.length → t[k]? = some (before (cellLens ps) r + RCM.entry x.2.old2New k)) ∧ t.Nodup ∧ ∀ c ∈ t, Owns (cellLens ps) r c) (ss.zip orders) (by
      intro r x hx
      obtain ⟨s, o⟩ := x
      obtain ⟨h1, h2⟩ := List.getElem?_zip_eq_some.1 hx
      obtain ⟨p, hp⟩ := at_some (l := ps) (r := r) (by rw [← hsl]; exact some_lt h1)
      obtain ⟨t, e, h3⟩ := newNumbers_run hg (lens_of hp) (hi r p o hp h2)
      refine ⟨t, by simp only; rw [hsn r s p h1 hp]; exact e, fun p' hp' => ?_⟩
      rw [hp] at hp'
      cases hp'
      exact h3)
  rw [List.length_zip, hsl, ho, Nat.min_self] at l
  have hat : ∀ (r : Nat) (t : List Int), o2n[r]? = some t → ∃ p s o, ps[r]? = some p ∧ ss[r]? = some s ∧ orders[r]? = some o ∧ t.length = p.cells.length ∧
      (∀ k, k < p.cells.length → t[k]? = some (before (cellLens ps) r + RCM.entry o.old2New k)) ∧ t.Nodup ∧ ∀ c ∈ t, Owns (cellLens ps) r c := by
    intro r t ht
    have hr : r < ps.length := by rw [← l]; exact some_lt ht
    obtain ⟨p, hp⟩ := at_some hr
    obtain ⟨s, hs⟩ := at_some (l := ss) (r := r) (by omega)
    obtain ⟨o, ho⟩ := at_some (l := orders) (r := r) (by omega)
    exact ⟨p, s, o, hp, hs, ho, h r (s, o) t (List.getElem?_zip_eq_some.2 ⟨hs, ho⟩) ht p hp⟩
  have hlens : o2n.map List.length = cellLens ps := by
    refine List.ext_getElem? fun r => ?_
    rw [List.getElem?_map]
    by_cases hr : r < o2n.length
    · obtain ⟨p, s, o, hp, _, _, h1, _⟩ := hat r _ (List.getElem?_eq_getElem hr)
      rw [List.getElem?_eq_getElem hr, lens_of hp, Option.map_some, h1]
    · rw [List.getElem?_eq_none (by omega), List.getElem?_eq_none (by simp [cellLens]; omega)]; rfl
  obtain ⟨css, c1, c2⟩ := list_of (α := List Cell) (P := fun r cs => ∀ p t, ps[r]? = some p → o2n[r]? = some t → place g r t p.cells p.cells = .ok cs)
    ps.length (by
      intro r hr
      obtain ⟨t, ht⟩ := at_some (l := o2n) (r := r) (by omega)
      obtain ⟨p, s, o, hp, _, _, h1, h2, h3, h4⟩ := hat r t ht
      obtain ⟨cs, e1, _⟩ := place_spec hg (lens_of hp) t p.cells p.cells h1 rfl h3 h4
      refine ⟨cs, fun p' t' hp' ht' => ?_⟩
      rw [hp] at hp'
      rw [ht] at ht'
      cases hp'; cases ht'
      exact e1)
  refine ⟨o2n, css, e, hlens, ho, ?_, ?_, hi, ?_, c1, fun r p t cs hp ht hc => c2 r cs hc p t hp ht⟩
  · intro r t ht; obtain ⟨_, _, _, _, _, _, _, _, h3, _⟩ := hat r t ht; exact h3
  · intro r t ht; obtain ⟨_, _, _, _, _, _, _, _, _, h4⟩ := hat r t ht; exact h4
  · intro r p o t hp ho ht
    obtain ⟨p', s', o', hp', _, ho', _, h2, _⟩ := hat r t ht
    rw [hp] at hp'
    rw [ho] at ho'
    cases hp'; cases ho'
    exact h2

section
variable {ps : List Piece} {g : GOM} {orders : List RCM.Order} {o2n : List (List Int)} {css : List (List Cell)}

theorem Numbering.at_ (h : Numbering ps g orders o2n css) {r : Nat} {p : Piece} (hp : ps[r]? = some p) :
    ∃ o t cs, orders[r]? = some o ∧ o2n[r]? = some t ∧ css[r]? = some cs ∧ t.length = p.cells.length := by
  have hr := some_lt hp
  have hl : o2n.length = ps.length := by have := congrArg List.length h.lens; simpa [cellLens] using this
  obtain ⟨o, ho⟩ := at_some (l := orders) (r := r) (by have := h.olen; omega)
  obtain ⟨t, ht⟩ := at_some (l := o2n) (r := r) (by omega)
  obtain ⟨cs, hc⟩ := at_some (l := css) (r := r) (by have := h.cellsLen; omega)
  refine ⟨o, t, cs, ho, ht, hc, ?_⟩
  have := congrArg (·[r]?) h.lens
  simp only [List.getElem?_map, ht, lens_of hp, Option.map_some] at this
  exact Option.some.inj this

/-- the new number of cell `k` of rank `r` -/
theorem Numbering.number (h : Numbering ps g orders o2n css) {r : Nat} {p : Piece} {o : RCM.Order} (hp : ps[r]? = some p) (ho : orders[r]? = some o)
    {k : Nat} (hk : k < p.cells.length) : newOf o2n ((before (cellLens ps) r : Int) + k) = before (cellLens ps) r + RCM.entry o.old2New k := by
  obtain ⟨o', t, cs, ho', ht, hc, hl⟩ := h.at_ hp
  rw [ho] at ho'
  cases ho'
  have := flatten_at o2n r k t ht (by omega)
  rw [h.lens, h.entries r p o t hp ho ht k hk] at this
  rw [newOf, show ((before (cellLens ps) r : Int) + k).toNat = before (cellLens ps) r + k by omega, this, Option.getD_some]

/-- a cell in its place -/
theorem Numbering.moved (h : Numbering ps g orders o2n css) (hg : Built (cellLens ps) g) {r : Nat} {p : Piece} {o : RCM.Order} {t : List Int} (hp : ps[r]? = some p)
    (ho : orders[r]? = some o) (ht : o2n[r]? = some t) {α : Type} {rows out : List α} (hl : rows.length = p.cells.length) (hpl : place g r t rows rows = .ok out) :
    out.length = p.cells.length ∧ ∀ k, k < p.cells.length → out[(RCM.entry o.old2New k).toNat]? = rows[k]? := by
  obtain ⟨o', t', cs, ho', ht', _, htl⟩ := h.at_ hp
  rw [ho] at ho'
  rw [ht] at ht'
  cases ho'; cases ht'
  obtain ⟨out', e, l, h1, _⟩ := place_spec hg (lens_of hp) t rows rows (by omega) hl (h.nodup r t ht) (h.owns r t ht)
  rw [hpl] at e
  cases Res.ok.inj e
  refine ⟨l, fun k hk => ?_⟩
  have := h1 k _ (h.entries r p o t hp ho ht k hk)
  rwa [show (before (cellLens ps) r : Int) + RCM.entry o.old2New k - before (cellLens ps) r = RCM.entry o.old2New k by omega] at this

theorem Numbering.renumbered (h : Numbering ps g orders o2n css) (hg : Built (cellLens ps) g) : Renumbered ps (piecesOf ps css) (newOf o2n) := by
  have hlen : (piecesOf ps css).length = ps.length := by rw [piecesOf, List.length_map, List.length_zip, h.cellsLen, Nat.min_self]
  -- a cell of a rank, and its new place
  have hown : ∀ (r : Nat) (c : Int), Owns (cellLens ps) r c → ∃ p o k, ps[r]? = some p ∧ orders[r]? = some o ∧ k < p.cells.length ∧
      c = (before (cellLens ps) r : Int) + (k : Nat) := by
    intro r c hc
    obtain ⟨p, C, hp, hC, _⟩ := owns_isCell hc
    obtain ⟨o, t, cs, ho, _⟩ := h.at_ hp
    obtain ⟨_, hb, _⟩ := hc
    exact ⟨p, o, _, hp, ho, some_lt hC, by omega⟩
  have hOwn : ∀ (r : Nat) (c : Int), Owns (cellLens ps) r c → Owns (cellLens ps) r (newOf o2n c) := by
    intro r c hc
    obtain ⟨p, o, k, hp, ho, hk, rfl⟩ := hown r c hc
    obtain ⟨_, h0, h1, _⟩ := (h.inverse r p o hp ho).2.2 k (by omega) (by omega)
    rw [h.number hp ho hk]
    have := owns_of_index (k := (RCM.entry o.old2New k).toNat) hp (by omega)
    rwa [show (((RCM.entry o.old2New k).toNat : Nat) : Int) = RCM.entry o.old2New k by omega] at this
  refine ⟨hlen, ?_, hOwn, ?_, ?_, ?_⟩
  · intro r p p' hp hp'
    obtain ⟨o, t, cs, ho, ht, hc, _⟩ := h.at_ hp
    rw [piecesOf_at hp hc] at hp'
    cases Option.some.inj hp'
    refine ⟨(h.moved hg hp ho ht rfl (h.cells r p t cs hp ht hc)).1, rfl, rfl⟩
  · intro c d hc hd e
    obtain ⟨r, hr⟩ := owns_exists hc.1 hc.2
    obtain ⟨r', hr'⟩ := owns_exists hd.1 hd.2
    have h1 := hOwn r c hr
    rw [e] at h1
    cases owns_unique h1 (hOwn r' d hr')
    obtain ⟨p, o, k, hp, ho, hk, rfl⟩ := hown r c hr
    obtain ⟨p', o', k', hp', ho', hk', rfl⟩ := hown r d hr'
    rw [hp] at hp'
    rw [ho] at ho'
    cases hp'; cases ho'
    rw [h.number hp ho hk, h.number hp ho hk'] at e
    have hinv := (h.inverse r p o hp ho).2.2
    have e1 := (hinv k (by omega) (by omega)).2.2.2
    have e2 := (hinv k' (by omega) (by omega)).2.2.2
    rw [show RCM.entry o.old2New (k : Int) = RCM.entry o.old2New (k' : Int) by omega, e2] at e1
    omega
  · intro d hd
    obtain ⟨r, hr⟩ := owns_exists hd.1 hd.2
    obtain ⟨p, o, k, hp, ho, hk, rfl⟩ := hown r d hr
    obtain ⟨h0, h1, h2⟩ := ((h.inverse r p o hp ho).2.2 k (by omega) (by omega)).1
    have hk' : (RCM.entry o.new2Old k).toNat < p.cells.length := by omega
    refine ⟨_, owns_range (owns_of_index hp hk'), ?_⟩
    rw [h.number hp ho hk', show (((RCM.entry o.new2Old k).toNat : Nat) : Int) = RCM.entry o.new2Old k by omega, h2]
  · intro c C hC
    have hg' := isCell_global hC
    obtain ⟨r, hr⟩ := owns_exists hg'.1 hg'.2
    obtain ⟨p, D, hp, hD, hD'⟩ := owns_isCell hr
    cases isCell_unique hC hD'
    obtain ⟨o, t, cs, ho, ht, hc, _⟩ := h.at_ hp
    have hk := some_lt hD
    obtain ⟨_, h0, h1, _⟩ := (h.inverse r p o hp ho).2.2 ((c - before (cellLens ps) r).toNat : Nat) (by omega) (by omega)
    have hm := (h.moved hg hp ho ht rfl (h.cells r p t cs hp ht hc)).2 _ hk
    rw [hD] at hm
    have := isCell_own (piecesOf_at hp hc) hm
    have hl : cellLens (piecesOf ps css) = cellLens ps := by
      refine List.ext_getElem? fun s => ?_
      by_cases hs : s < ps.length
      · obtain ⟨q, hq⟩ := at_some hs
        obtain ⟨o', t', cs', ho', ht', hc', _⟩ := h.at_ hq
        rw [lens_of hq, lens_of (piecesOf_at hq hc')]
        simp only [(h.moved hg hq ho' ht' rfl (h.cells s q t' cs' hq ht' hc')).1]
      · rw [List.getElem?_eq_none (by simp [cellLens]; omega), List.getElem?_eq_none (by simp [cellLens]; omega)]
    rw [hl] at this
    obtain ⟨_, hb, _⟩ := hr
    have hn := h.number hp ho hk
    rw [show (before (cellLens ps) r : Int) + ((c - before (cellLens ps) r).toNat : Nat) = c by omega] at hn
    rw [hn]
    rwa [show (((RCM.entry o.old2New ((c - before (cellLens ps) r).toNat : Nat)).toNat : Nat) : Int) = RCM.entry o.old2New ((c - before (cellLens ps) r).toNat : Nat) by omega] at this

end

end DNDSR.Reorder
