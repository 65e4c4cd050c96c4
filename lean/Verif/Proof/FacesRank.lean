import Verif.Proof.FacesCollect
import Verif.Proof.Node2CellRun

/-! Helper lemmas for `Verif.Props.FacesGhost`: what one rank has before the exchange. -/

namespace DNDSR.Faces

open DNDSR.Elem DNDSR.IMap DNDSR.MeshAdj DNDSR.Part

theorem renumber_spec {all : List Int} {rows : List (List Nat)} (h : ∀ row ∈ rows, ∀ k ∈ row, k < all.length) :
    ∃ out, renumber all rows = .ok out ∧ out.length = rows.length ∧
      (∀ (l : Nat) (row : List Nat) (row' : List Int), rows[l]? = some row → out[l]? = some row' → row'.length = row.length) ∧
      ∀ (l j : Nat) (e : Int), Gives out l j e ↔ ∃ k, Gives rows l j k ∧ all[k]? = some e := by
  obtain ⟨out, e, h1, h2⟩ := N2C.forRanks_all (fun _ row => forRanks (fun _ k => idx all k) 0 row)
    (fun _ row row' => row'.length = row.length ∧ ∀ (j k : Nat) (v : Int), row[j]? = some k → row'[j]? = some v → all[k]? = some v) rows
    (by
      intro i row hi
      obtain ⟨row', e, a, b⟩ := N2C.forRanks_all (fun _ k => idx all k) (fun _ k v => all[k]? = some v) row
        (by
          intro j k hk
          have := h row (List.mem_of_getElem? hi) k (List.mem_of_getElem? hk)
          exact ⟨all[k], idx_ok _ _ this, List.getElem?_eq_getElem this⟩)
      exact ⟨row', e, a, b⟩)
  refine ⟨out, e, h1, fun l row row' ha hb => (h2 l row row' ha hb).1, ?_⟩
  intro l j v
  constructor
  · rintro ⟨row', hr', hv⟩
    have hl : l < rows.length := by rw [← h1]; exact (List.getElem?_eq_some_iff.1 hr').1
    obtain ⟨a, b⟩ := h2 l _ row' (List.getElem?_eq_getElem hl) hr'
    have hj : j < rows[l].length := by rw [← a]; exact (List.getElem?_eq_some_iff.1 hv).1
    exact ⟨_, ⟨_, List.getElem?_eq_getElem hl, List.getElem?_eq_getElem hj⟩, b j _ v (List.getElem?_eq_getElem hj) hv⟩
  · rintro ⟨k, ⟨row, hr, hk⟩, hv⟩
    have hl : l < out.length := by rw [h1]; exact (List.getElem?_eq_some_iff.1 hr).1
    obtain ⟨a, b⟩ := h2 l row _ hr (List.getElem?_eq_getElem hl)
    have hj : j < out[l].length := by rw [a]; exact (List.getElem?_eq_some_iff.1 hk).1
    refine ⟨_, List.getElem?_eq_getElem hl, ?_⟩
    have := b j k _ hk (List.getElem?_eq_getElem hj)
    rw [hv] at this
    rw [List.getElem?_eq_getElem hj, this]

theorem gives_unique {α : Type} {rows : List (List α)} {i j : Nat} {a b : α} (h : Gives rows i j a) (h' : Gives rows i j b) : a = b := by
  obtain ⟨r1, h1, h2⟩ := h
  obtain ⟨r2, h3, h4⟩ := h'
  rw [h1] at h3; cases h3
  rw [h2] at h4; cases h4; rfl

theorem gives_slot {per : Bool} {srt : Sorter} {cells : List Cell} {faces : List Face} {rows : List (List Nat)} (hM : Matching per srt cells faces rows)
    {l j k : Nat} (h : Gives rows l j k) : ∃ s, IsSlot per cells l j s := by
  obtain ⟨row, h1, h2⟩ := h
  have hl : l < cells.length := by rw [← hM.size]; exact (List.getElem?_eq_some_iff.1 h1).1
  have hw := hM.width l _ row (List.getElem?_eq_getElem hl) h1
  exact ⟨_, _, List.getElem?_eq_getElem hl, by rw [← hw]; exact (List.getElem?_eq_some_iff.1 h2).1, rfl⟩

section rank

variable {per : Bool} {cl nl : List Nat} {G : List Cell} {gc : GOM} {ranks : List RankIn} {r : Nat} {x : RankIn}

/-- a face of the rank, in terms of the mesh -/
structure Shape (per : Bool) (cl : List Nat) (G : List Cell) (r : Nat) (x : RankIn) (rows : List (List Nat)) (k : Nat) (f : Face)
    (l i j : Nat) (a : Slot) : Prop where
  first : f.first = l
  is : Is cl r x l i
  slot : IsSlot per G i j a
  nodes : f.slot = rename (nameOf x.nodeMap) a
  gives : Gives rows l j k
  second : (f.second = unInit ∧ ∀ i' j', Gives rows i' j' k → i' = l ∧ j' = j) ∨
    ∃ (l' i' j' : Nat) (b : Slot), f.second = l' ∧ l ≤ l' ∧ (l, j) ≠ (l', j') ∧ Is cl r x l' i' ∧ IsSlot per G i' j' b ∧ SameFace per a b ∧
      Gives rows l' j' k ∧ ∀ i'' j'', Gives rows i'' j'' k → (i'' = l ∧ j'' = j) ∨ (i'' = l' ∧ j'' = j')

theorem shape (hD : Distributed per cl nl G gc ranks) (hx : ranks[r]? = some x) {srt : Sorter} (hs : Sorts srt) {faces : List Face}
    {rows : List (List Nat)} (hM : Matching per srt x.cells faces rows) {k : Nat} {f : Face} (hf : faces[k]? = some f) :
    ∃ l i j a, Shape per cl G r x rows k f l i j a := by
  obtain ⟨l, j, h1, h2, h3, h4⟩ := hM.cells k f hf
  obtain ⟨i, a, hi, ha, ea, _⟩ := local_slot hD hx h1
  refine ⟨l, i, j, a, h3, hi, ha, ea, h2, ?_⟩
  rcases h4 with h4 | ⟨l', j', h5, h6, h7, h8⟩
  · exact Or.inl h4
  · obtain ⟨s', hs'⟩ := gives_slot hM h7
    obtain ⟨i', b, hi', hb, eb, _⟩ := local_slot hD hx hs'
    have hsame := (hM.iff l j l' j' k k _ _ h1 hs' h2 h7).1 rfl
    rw [ea, eb, same_local hD hx hs ha hb hi hi'] at hsame
    refine Or.inr ⟨l', i', j', b, h5, ?_, ?_, hi', hb, hsame, h7, h8⟩
    · rcases h6 with h6 | ⟨h6, _⟩ <;> omega
    · intro e
      simp only [Prod.mk.injEq] at e
      rcases h6 with h6 | ⟨_, h6⟩ <;> omega

theorem owner_of (hD : Distributed per cl nl G gc ranks) {i j : Nat} {a : Slot} (h : IsSlot per G i j a) : ∃ ρ, Owns cl ρ i := by
  obtain ⟨C, hC, _⟩ := h
  have : i < G.length := (List.getElem?_eq_some_iff.1 hC).1
  rw [hD.len] at this
  exact owns_exists (by omega) (by omega)

theorem apply_is (hH : Holds cl nl G r x) {l i : Nat} (h : Is cl r x l i) : x.cellMap.apply (-1) l = .ok (i : Int) :=
  hH.cellMap.faithful.apply_of_name h (by omega) (by omega)

theorem number_is (hH : Holds cl nl G r x) {l i : Nat} (h : Is cl r x l i) : numberOf x.cellMap l = i :=
  numberOf_eq hH.cellMap.faithful (by omega) (by omega) h

theorem unInit_neg : unInit < 0 := by decide

theorem collect_ok (hD : Distributed per cl nl G gc ranks) (hx : ranks[r]? = some x) {rows : List (List Nat)} {k : Nat} {f : Face}
    {l i j : Nat} {a : Slot} (h : Shape per cl G r x rows k f l i j a) :
    (∀ ρ, statOf x.cellMap gc r x.nOwn f = .send ρ → ρ < ranks.length) ∧
    ∀ c : Collect, c.send.length = ranks.length →
      collectFace x.cellMap gc r x.nOwn c f = .ok ((statOf x.cellMap gc r x.nOwn f).step c) := by
  have hH := hD.holds r x hx
  have hu := unInit_neg
  rcases h.second with ⟨e2, _⟩ | ⟨l', i', j', b, e2, hle, hne, hi', hb, hsf, hg, _⟩
  · rw [statOf, if_pos e2]
    by_cases h1 : f.first ≥ x.nOwn
    · rw [if_pos h1]
      refine ⟨fun ρ e => by (cases e), fun c _ => ?_⟩
      rw [collectFace, if_pos ⟨e2, h1⟩]; rfl
    · rw [if_neg h1]
      refine ⟨fun ρ e => by (cases e), fun c _ => ?_⟩
      rw [collectFace, if_neg (fun h => h1 h.2), if_neg (fun h => h1 h.1), if_neg (by omega)]; rfl
  · have e2' : f.second ≠ unInit := by omega
    rw [statOf, if_neg e2']
    by_cases h1 : f.first ≥ x.nOwn ∧ f.second ≥ x.nOwn
    · rw [if_pos h1]
      refine ⟨fun ρ e => by (cases e), fun c _ => ?_⟩
      rw [collectFace, if_neg (fun h => e2' h.1), if_pos h1]; rfl
    · rw [if_neg h1]
      have hf := h.first
      by_cases h2 : f.second ≥ x.nOwn
      · rw [if_pos h2]
        have hl : l < x.nOwn := by omega
        have ho : Owns cl r i := (is_own hH h.is).1 hl
        have ho' : ¬ Owns cl r i' := fun ho' => by have := (is_own hH hi').2 ho'; omega
        obtain ⟨ρ, hρ⟩ := owner_of hD hb
        have hne : r ≠ ρ := by rintro rfl; exact ho' hρ
        have eo : ownerOf gc (numberOf x.cellMap f.second) = ρ := by
          rw [e2, number_is hH hi']; exact ownerOf_eq hD.built hρ
        rw [eo]
        have hρl : ρ < ranks.length := by rw [hD.nranks]; exact hρ.1
        have es1 := search_of_owns hD.built ho
        have es2 := search_of_owns hD.built hρ
        have hbody : ∀ c : Collect, collectFace x.cellMap gc r x.nOwn c f = (do
            if r > ρ then .ok { c with all := c.all ++ [-1] }
            else do
              Res.assert (r = r)
              let row ← idx c.send ρ
              .ok ⟨c.all ++ [(c.n : Int)], c.send.set ρ (row ++ [(c.n : Int)]), c.n + 1⟩) := by
          intro c
          rw [collectFace, if_neg (fun h => e2' h.1), if_neg h1, if_pos (Or.inr h2), Res.assert_true _ h2]
          simp only [Res.ok_bind, h.first, e2, apply_is hH h.is, apply_is hH hi', es1, es2, Res.assert_true _ hne]
        by_cases hgt : r > ρ
        · rw [if_pos hgt]
          refine ⟨fun ρ e => by (cases e), fun c _ => ?_⟩
          rw [hbody, if_pos hgt]; rfl
        · rw [if_neg hgt]
          refine ⟨fun ρ' e => by (cases e; exact hρl), fun c hc => ?_⟩
          have hlt : ρ < c.send.length := by omega
          rw [hbody, if_neg hgt, Res.assert_true _ rfl, Res.ok_bind, idx_ok _ _ hlt, Res.ok_bind]
          simp only [Status.step, List.getElem?_eq_getElem hlt, Option.getD_some]
      · rw [if_neg h2]
        refine ⟨fun ρ e => by (cases e), fun c _ => ?_⟩
        rw [collectFace, if_neg (fun h => e2' h.1), if_neg h1, if_neg (by omega)]; rfl

/-- a face is kept if the rank owns its first cell and no lower rank owns the other -/
theorem stat_kept (hD : Distributed per cl nl G gc ranks) (hx : ranks[r]? = some x) {rows : List (List Nat)} {k : Nat} {f : Face}
    {l i j : Nat} {a : Slot} (h : Shape per cl G r x rows k f l i j a) (hk : (statOf x.cellMap gc r x.nOwn f).Kept) :
    Owns cl r i ∧ ∀ l' i' ρ : Nat, f.second = l' → Is cl r x l' i' → Owns cl ρ i' → r ≤ ρ := by
  have hH := hD.holds r x hx
  have hu := unInit_neg
  rw [statOf] at hk
  have hf := h.first
  have own : ∀ {l i : Nat}, Is cl r x l i → l < x.nOwn → Owns cl r i := fun hi hl => (is_own hH hi).1 hl
  rcases h.second with ⟨e2, _⟩ | ⟨l', i', j', b, e2, hle, hne, hi', hb, hsf, hg, _⟩
  · rw [if_pos e2] at hk
    by_cases h1 : f.first ≥ x.nOwn
    · rw [if_pos h1] at hk; exact absurd hk id
    · refine ⟨own h.is (by omega), fun l' i' ρ e => ?_⟩
      omega
  · rw [if_neg (show f.second ≠ unInit by omega)] at hk
    by_cases h1 : f.first ≥ x.nOwn ∧ f.second ≥ x.nOwn
    · rw [if_pos h1] at hk; exact absurd hk id
    · rw [if_neg h1] at hk
      by_cases h2 : f.second ≥ x.nOwn
      · rw [if_pos h2] at hk
        refine ⟨own h.is (by omega), fun l2 i2 ρ e hi2 hρ => ?_⟩
        have : l2 = l' := by omega
        subst this
        have : i2 = i' := is_inj hH hi2 hi'
        subst this
        have eo : ownerOf gc (numberOf x.cellMap f.second) = ρ := by
          rw [e2, number_is hH hi']; exact ownerOf_eq hD.built hρ
        rw [eo] at hk
        by_cases hgt : r > ρ
        · rw [if_pos hgt] at hk; exact absurd hk id
        · omega
      · refine ⟨own h.is (by omega), fun l2 i2 ρ e hi2 hρ => ?_⟩
        have := own hi2 (by omega)
        have := owns_unique this hρ
        omega

/-- a face of an own cell is kept, or it is away and a lower rank owns the other cell -/
theorem stat_own (hD : Distributed per cl nl G gc ranks) (hx : ranks[r]? = some x) {rows : List (List Nat)} {k : Nat} {f : Face}
    {l i j : Nat} {a : Slot} (h : Shape per cl G r x rows k f l i j a) (ho : l < x.nOwn) :
    (statOf x.cellMap gc r x.nOwn f).Kept ∨ (statOf x.cellMap gc r x.nOwn f = .away ∧
      ∃ l' i' ρ : Nat, f.second = l' ∧ Is cl r x l' i' ∧ Owns cl ρ i' ∧ ρ < r) := by
  have hH := hD.holds r x hx
  have hu := unInit_neg
  rw [statOf]
  have hf := h.first
  rcases h.second with ⟨e2, _⟩ | ⟨l', i', j', b, e2, hle, hne, hi', hb, hsf, hg, _⟩
  · rw [if_pos e2, if_neg (by omega)]; exact Or.inl trivial
  · rw [if_neg (show f.second ≠ unInit by omega), if_neg (by omega)]
    by_cases h2 : f.second ≥ x.nOwn
    · rw [if_pos h2]
      obtain ⟨ρ, hρ⟩ := owner_of hD hb
      have eo : ownerOf gc (numberOf x.cellMap f.second) = ρ := by
        rw [e2, number_is hH hi']; exact ownerOf_eq hD.built hρ
      rw [eo]
      by_cases hgt : r > ρ
      · rw [if_pos hgt]; exact Or.inr ⟨rfl, l', i', ρ, e2, hi', hρ, hgt⟩
      · rw [if_neg hgt]; exact Or.inl trivial
    · rw [if_neg h2]; exact Or.inl trivial

theorem stat_send (hD : Distributed per cl nl G gc ranks) (hx : ranks[r]? = some x) {rows : List (List Nat)} {k : Nat} {f : Face}
    {l i j : Nat} {a : Slot} (h : Shape per cl G r x rows k f l i j a) (hk : (statOf x.cellMap gc r x.nOwn f).Kept) (ρ : Nat) :
    statOf x.cellMap gc r x.nOwn f = .send ρ ↔ ρ ≠ r ∧ ∃ l' i' : Nat, f.second = l' ∧ Is cl r x l' i' ∧ Owns cl ρ i' := by
  have hH := hD.holds r x hx
  have hu := unInit_neg
  obtain ⟨hown, hlow⟩ := stat_kept hD hx h hk
  rw [statOf]
  have hf := h.first
  have hl := (is_own hH h.is).2 hown
  rcases h.second with ⟨e2, _⟩ | ⟨l', i', j', b, e2, hle, hne, hi', hb, hsf, hg, _⟩
  · rw [if_pos e2, if_neg (by omega)]
    constructor
    · intro e; cases e
    · rintro ⟨_, l', i', e, _⟩; omega
  · rw [if_neg (show f.second ≠ unInit by omega), if_neg (by omega)]
    obtain ⟨ρ', hρ'⟩ := owner_of hD hb
    have eo : ownerOf gc (numberOf x.cellMap f.second) = ρ' := by
      rw [e2, number_is hH hi']; exact ownerOf_eq hD.built hρ'
    have hle := hlow l' i' ρ' e2 hi' hρ'
    by_cases h2 : f.second ≥ x.nOwn
    · rw [if_pos h2, eo, if_neg (by omega)]
      have hne' : ρ' ≠ r := by
        rintro rfl
        have := (is_own hH hi').2 hρ'
        omega
      constructor
      · intro e; cases e; exact ⟨hne', l', i', e2, hi', hρ'⟩
      · rintro ⟨_, l2, i2, e, hi2, ho2⟩
        have : l2 = l' := by omega
        subst this
        have : i2 = i' := is_inj hH hi2 hi'
        subst this
        rw [owns_unique ho2 hρ']
    · rw [if_neg h2]
      constructor
      · intro e; cases e
      · rintro ⟨hne', l2, i2, e, hi2, ho2⟩
        have := (is_own hH hi2).1 (by omega)
        exact absurd (owns_unique ho2 this) hne'

/-- What one rank has before the exchange, in terms of the mesh. -/
structure RankFaces (per : Bool) (cl : List Nat) (G : List Cell) (ranks : List RankIn) (r : Nat) (x : RankIn) (o : Interp) : Prop where
  size : o.c2f.length = x.cells.length
  width : ∀ (l : Nat) (c : Cell) (row : List Int), x.cells[l]? = some c → o.c2f[l]? = some row → row.length = (numFaces c.type).toNat
  entry : ∀ (l j : Nat) (e : Int), Gives o.c2f l j e → e = unInit ∨ e = -1 ∨ ∃ q : Nat, e = q ∧ q < o.faces.length
  given : ∀ (l i j : Nat) (a : Slot), Is cl r x l i → IsSlot per G i j a → ∃ e, Gives o.c2f l j e
  face : ∀ (q : Nat) (f : Face), o.faces[q]? = some f → ∃ (l i j : Nat) (a : Slot), f.first = l ∧ Is cl r x l i ∧ IsSlot per G i j a ∧
    f.slot = rename (nameOf x.nodeMap) a ∧ Owns cl r i ∧ Gives o.c2f l j (q : Int) ∧
    ((f.second = unInit ∧ ∀ l' j', Gives o.c2f l' j' (q : Int) → l' = l ∧ j' = j) ∨
     ∃ (l' i' j' : Nat) (b : Slot), f.second = l' ∧ (l, j) ≠ (l', j') ∧ Is cl r x l' i' ∧ IsSlot per G i' j' b ∧
      SameFace per a b ∧ Gives o.c2f l' j' (q : Int))
  sides : ∀ (q : Nat) (f : Face) (l j : Nat), o.faces[q]? = some f → Gives o.c2f l j (q : Int) → f.first = l ∨ f.second = l
  same : ∀ (l i j l' i' j' : Nat) (a b : Slot) (e e' : Int), Is cl r x l i → IsSlot per G i j a → Is cl r x l' i' → IsSlot per G i' j' b →
    SameFace per a b → Gives o.c2f l j e → Gives o.c2f l' j' e' → e = e'
  back : ∀ (l i j l' i' j' : Nat) (a b : Slot) (q : Nat), Is cl r x l i → IsSlot per G i j a → Is cl r x l' i' → IsSlot per G i' j' b →
    Gives o.c2f l j (q : Int) → Gives o.c2f l' j' (q : Int) → SameFace per a b
  low : ∀ (l i j ρ : Nat) (q : Nat), Gives o.c2f l j (q : Int) → Is cl r x l i → Owns cl ρ i → r ≤ ρ
  own : ∀ (l i j : Nat) (a : Slot), Is cl r x l i → IsSlot per G i j a → Owns cl r i →
    (∃ q : Nat, q < o.faces.length ∧ Gives o.c2f l j (q : Int)) ∨
    (Gives o.c2f l j (-1) ∧ ∃ (l' i' j' ρ : Nat) (b : Slot), Is cl r x l' i' ∧ IsSlot per G i' j' b ∧ SameFace per a b ∧ Owns cl ρ i' ∧ ρ < r)
  sendLen : o.send.length = ranks.length
  sendSorted : ∀ (ρ : Nat) (row : List Int), o.send[ρ]? = some row → row.Pairwise (· < ·) ∧ ∀ v ∈ row, ∃ q : Nat, v = q ∧ q < o.faces.length
  sendMem : ∀ (ρ : Nat) (row : List Int), o.send[ρ]? = some row → ∀ q : Nat, (q : Int) ∈ row ↔
    ∃ f, o.faces[q]? = some f ∧ ρ ≠ r ∧ ∃ l' i' : Nat, f.second = l' ∧ Is cl r x l' i' ∧ Owns cl ρ i'

theorem rank_build (hD : Distributed per cl nl G gc ranks) (hx : ranks[r]? = some x) {srt : Sorter} (hs : Sorts srt) :
    ∃ o, buildFaces per srt x.nNodes x.cellMap gc r ranks.length x.nOwn x.cells = .ok o ∧ RankFaces per cl G ranks r x o := by
  have hH := hD.holds r x hx
  obtain ⟨st, rows, em, hM⟩ := rank_match hD hx hs
  have hsh : ∀ {k : Nat} {f : Face}, st.faces[k]? = some f → ∃ l i j a, Shape per cl G r x rows k f l i j a := fun hf => shape hD hx hs hM hf
  obtain ⟨c, ec, hc⟩ := collectFaces_spec (mp := x.cellMap) (g := gc) (rank := r) (nFather := x.nOwn) (size := ranks.length)
    (statOf x.cellMap gc r x.nOwn) st.faces [] _ (coll_init _ _) (by
      intro f hf
      obtain ⟨k, hk⟩ := List.mem_iff_getElem?.1 hf
      obtain ⟨l, i, j, a, h⟩ := hsh hk
      exact collect_ok hD hx h)
  rw [List.nil_append] at hc
  have hkl : ∀ {l j k : Nat}, Gives rows l j k → ∃ f, st.faces[k]? = some f := by
    intro l j k hg
    obtain ⟨s, hsl⟩ := gives_slot hM hg
    obtain ⟨k', f, h1, h2, _⟩ := hM.given l j s hsl
    rw [gives_unique hg h1]; exact ⟨f, h2⟩
  obtain ⟨c2f, er, h1, h2, h3⟩ := renumber_spec (all := c.all) (rows := rows) (by
    intro row hr k hk
    obtain ⟨l, hl⟩ := List.mem_iff_getElem?.1 hr
    obtain ⟨j, hj⟩ := List.mem_iff_getElem?.1 hk
    obtain ⟨f, hf⟩ := hkl ⟨row, hl, hj⟩
    rw [hc.len]; exact (List.getElem?_eq_some_iff.1 hf).1)
  -- a nonnegative entry
  have hq : ∀ {l j q : Nat}, Gives c2f l j (q : Int) → ∃ k f l0 i0 j0 a0, Gives rows l j k ∧ c.all[k]? = some (q : Int) ∧
      st.faces[k]? = some f ∧ (keptFaces st.faces c.all)[q]? = some f ∧ (statOf x.cellMap gc r x.nOwn f).Kept ∧
      Shape per cl G r x rows k f l0 i0 j0 a0 := by
    intro l j q hg
    obtain ⟨k, hg', hk⟩ := (h3 l j q).1 hg
    have hlt := hc.lt k q hk
    rw [hc.n] at hlt
    obtain ⟨k', e1, e2, e3⟩ := hc.back q _ (List.getElem?_eq_getElem hlt)
    have := hc.inj k k' q hk e2
    subst this
    obtain ⟨l0, i0, j0, a0, hS⟩ := hsh e1
    exact ⟨k, _, l0, i0, j0, a0, hg', hk, e1, List.getElem?_eq_getElem hlt, e3, hS⟩
  have hface : ∀ {q : Nat} {f : Face}, (keptFaces st.faces c.all)[q]? = some f → ∃ k l0 i0 j0 a0, c.all[k]? = some (q : Int) ∧
      st.faces[k]? = some f ∧ (statOf x.cellMap gc r x.nOwn f).Kept ∧ Shape per cl G r x rows k f l0 i0 j0 a0 := by
    intro q f hf
    obtain ⟨k, e1, e2, e3⟩ := hc.back q f hf
    obtain ⟨l0, i0, j0, a0, hS⟩ := hsh e1
    exact ⟨k, l0, i0, j0, a0, e2, e1, e3, hS⟩
  have hiff : ∀ {l i j l' i' j' k k' : Nat} {a b : Slot}, Is cl r x l i → IsSlot per G i j a → Is cl r x l' i' → IsSlot per G i' j' b →
      Gives rows l j k → Gives rows l' j' k' → (k = k' ↔ SameFace per a b) := by
    intro l i j l' i' j' k k' a b hi ha hi' hb hk hk'
    rw [← same_local hD hx hs ha hb hi hi']
    exact hM.iff l j l' j' k k' _ _ (global_slot hD hx hi ha).1 (global_slot hD hx hi' hb).1 hk hk'
  have hgiven : ∀ {l i j : Nat} {a : Slot}, Is cl r x l i → IsSlot per G i j a → ∃ k f, Gives rows l j k ∧ st.faces[k]? = some f := by
    intro l i j a hi ha
    obtain ⟨k, f, e1, e2, _⟩ := hM.given l j _ (global_slot hD hx hi ha).1
    exact ⟨k, f, e1, e2⟩
  have hall : ∀ {k : Nat} {f : Face}, st.faces[k]? = some f → ∃ e, c.all[k]? = some e := fun hf =>
    ⟨_, List.getElem?_eq_getElem (by rw [hc.len]; exact (List.getElem?_eq_some_iff.1 hf).1)⟩
  refine ⟨⟨keptFaces st.faces c.all, c2f, c.send⟩, ?_, ?_⟩
  · rw [buildFaces, em]
    simp only [Res.ok_bind, ec, er]
  refine ⟨by show c2f.length = _; rw [h1, hM.size], ?_, ?_, ?_, ?_, ?_, ?_, ?_, ?_, ?_, hc.sendLen, ?_, ?_⟩
  · intro l cc row hcc hrow
    have hl : l < rows.length := by rw [hM.size]; exact (List.getElem?_eq_some_iff.1 hcc).1
    rw [h2 l _ row (List.getElem?_eq_getElem hl) hrow]
    exact hM.width l cc _ hcc (List.getElem?_eq_getElem hl)
  · intro l j e hg
    obtain ⟨k, hk, he⟩ := (h3 l j e).1 hg
    obtain ⟨f, hf⟩ := hkl hk
    cases hst : statOf x.cellMap gc r x.nOwn f with
    | drop => have := hc.drop k f hf hst; rw [he] at this; cases this; exact Or.inl rfl
    | away => have := hc.away k f hf hst; rw [he] at this; cases this; exact Or.inr (Or.inl rfl)
    | keep =>
      obtain ⟨q, e1, e2⟩ := hc.kept k f hf (by rw [hst]; trivial)
      rw [he] at e1; cases e1
      exact Or.inr (Or.inr ⟨q, rfl, (List.getElem?_eq_some_iff.1 e2).1⟩)
    | send ρ =>
      obtain ⟨q, e1, e2⟩ := hc.kept k f hf (by rw [hst]; trivial)
      rw [he] at e1; cases e1
      exact Or.inr (Or.inr ⟨q, rfl, (List.getElem?_eq_some_iff.1 e2).1⟩)
  · intro l i j a hi ha
    obtain ⟨k, f, e1, e2⟩ := hgiven hi ha
    obtain ⟨e, he⟩ := hall e2
    exact ⟨e, (h3 l j e).2 ⟨k, e1, he⟩⟩
  · intro q f hf
    obtain ⟨k, l0, i0, j0, a0, e1, e2, e3, hS⟩ := hface hf
    refine ⟨l0, i0, j0, a0, hS.first, hS.is, hS.slot, hS.nodes, (stat_kept hD hx hS e3).1, (h3 _ _ _).2 ⟨k, hS.gives, e1⟩, ?_⟩
    rcases hS.second with ⟨e, hu⟩ | ⟨l', i', j', b, e, _, hne, hi', hb, hsf, hg, _⟩
    · refine Or.inl ⟨e, fun l' j' hg => ?_⟩
      obtain ⟨k', hk', he'⟩ := (h3 l' j' q).1 hg
      have := hc.inj k k' q e1 he'
      subst this
      exact hu l' j' hk'
    · exact Or.inr ⟨l', i', j', b, e, hne, hi', hb, hsf, (h3 _ _ _).2 ⟨k, hg, e1⟩⟩
  · intro q f l j hf hg
    obtain ⟨k, f', l0, i0, j0, a0, e1, e2, e3, e4, e5, hS⟩ := hq hg
    rw [show (keptFaces st.faces c.all)[q]? = some f from hf] at e4
    cases e4
    rcases hS.second with ⟨e, hu⟩ | ⟨l', i', j', b, e, _, hne, hi', hb, hsf, hg', hu⟩
    · exact Or.inl (by rw [hS.first, (hu _ _ e1).1])
    · rcases hu _ _ e1 with ⟨h, _⟩ | ⟨h, _⟩
      · exact Or.inl (by rw [hS.first, h])
      · exact Or.inr (by rw [e, h])
  · intro l i j l' i' j' a b e e' hi ha hi' hb hsf hg hg'
    obtain ⟨k, hk, he⟩ := (h3 l j e).1 hg
    obtain ⟨k', hk', he'⟩ := (h3 l' j' e').1 hg'
    have := (hiff hi ha hi' hb hk hk').2 hsf
    subst this
    rw [he] at he'; cases he'; rfl
  · intro l i j l' i' j' a b q hi ha hi' hb hg hg'
    obtain ⟨k, hk, he⟩ := (h3 l j q).1 hg
    obtain ⟨k', hk', he'⟩ := (h3 l' j' q).1 hg'
    exact (hiff hi ha hi' hb hk hk').1 (hc.inj k k' q he he')
  · intro l i j ρ q hg hi hρ
    obtain ⟨k, f, l0, i0, j0, a0, e1, e2, e3, e4, e5, hS⟩ := hq hg
    obtain ⟨o1, o2⟩ := stat_kept hD hx hS e5
    rcases hS.second with ⟨e, hu⟩ | ⟨l', i', j', b, e, _, hne, hi', hb, hsf, hg', hu⟩
    · obtain ⟨rfl, rfl⟩ := hu _ _ e1
      have := is_inj hH hi hS.is
      subst this
      have := owns_unique o1 hρ
      omega
    · rcases hu _ _ e1 with ⟨rfl, rfl⟩ | ⟨rfl, rfl⟩
      · have := is_inj hH hi hS.is
        subst this
        have := owns_unique o1 hρ
        omega
      · exact o2 l i ρ e hi hρ
  · intro l i j a hi ha ho
    obtain ⟨k, f, e1, e2⟩ := hgiven hi ha
    obtain ⟨l0, i0, j0, a0, hS⟩ := hsh e2
    have hl := (is_own hH hi).2 ho
    have hl0 : l0 < x.nOwn := by
      rcases hS.second with ⟨e, hu⟩ | ⟨l', i', j', b, e, hle, hne, hi', hb, hsf, hg', hu⟩
      · have := (hu _ _ e1).1; omega
      · rcases hu _ _ e1 with ⟨h, _⟩ | ⟨h, _⟩ <;> omega
    rcases stat_own hD hx hS hl0 with hk | ⟨haw, l', i', ρ, e5, hi', hρ, hlt⟩
    · obtain ⟨q, e3, e4⟩ := hc.kept k f e2 hk
      exact Or.inl ⟨q, (List.getElem?_eq_some_iff.1 e4).1, (h3 _ _ _).2 ⟨k, e1, e3⟩⟩
    · refine Or.inr ⟨(h3 _ _ _).2 ⟨k, e1, hc.away k f e2 haw⟩, ?_⟩
      rcases hS.second with ⟨e, hu⟩ | ⟨l2, i2, j2, b, e, hle, hne, hi2, hb, hsf, hg', hu⟩
      · have := unInit_neg; omega
      · have : l2 = l' := by omega
        subst this
        have := is_inj hH hi' hi2
        subst this
        exact ⟨l2, i', j2, ρ, b, hi2, hb, (hiff hi ha hi2 hb e1 hg').1 rfl, hρ, hlt⟩
  · intro ρ row hr
    obtain ⟨a, b⟩ := hc.sendSorted ρ row hr
    refine ⟨a, fun v hv => ?_⟩
    obtain ⟨q, e, hlt⟩ := b v hv
    exact ⟨q, e, by rw [hc.n] at hlt; exact hlt⟩
  · intro ρ row hr q
    rw [hc.sendMem ρ row hr q]
    constructor
    · rintro ⟨f, hf, hst⟩
      obtain ⟨k, l0, i0, j0, a0, e1, e2, e3, hS⟩ := hface hf
      exact ⟨f, hf, (stat_send hD hx hS e3 ρ).1 hst⟩
    · rintro ⟨f, hf, h⟩
      obtain ⟨k, l0, i0, j0, a0, e1, e2, e3, hS⟩ := hface hf
      exact ⟨f, hf, (stat_send hD hx hS e3 ρ).2 h⟩

end rank

end DNDSR.Faces
