import Verif.Proof.FacesRank

/-! Helper lemmas for `Verif.Props.FacesGhost`: the global number of a face. -/

namespace DNDSR.Faces

open DNDSR.Elem DNDSR.IMap DNDSR.MeshAdj DNDSR.Part

/-- what all ranks have before the exchange -/
structure World (per : Bool) (cl nl : List Nat) (G : List Cell) (gc : GOM) (ranks : List RankIn) (outs : List Interp) : Prop
    extends Distributed per cl nl G gc ranks where
  outsLen : outs.length = ranks.length
  rank : ∀ (r : Nat) (x : RankIn) (o : Interp), ranks[r]? = some x → outs[r]? = some o → RankFaces per cl G ranks r x o

abbrev lensOf (outs : List Interp) : List Nat := outs.map (·.faces.length)

/-- slot `(i, j)` has the face with number `Q`, which is face `q` of rank `r` and has the slot `(i0, j0)` of an own cell -/
structure Num (per : Bool) (cl : List Nat) (G : List Cell) (ranks : List RankIn) (outs : List Interp) (Q : Int) (i j : Nat) (a : Slot)
    (r : Nat) (x : RankIn) (o : Interp) (q l i0 j0 : Nat) (a0 : Slot) : Prop where
  slot : IsSlot per G i j a
  hx : ranks[r]? = some x
  ho : outs[r]? = some o
  eq : Q = before (lensOf outs) r + q
  lt : q < o.faces.length
  is : Is cl r x l i0
  own : Owns cl r i0
  slot0 : IsSlot per G i0 j0 a0
  gives : Gives o.c2f l j0 (q : Int)
  same : SameFace per a0 a

/-- slot `(i, j)` has face number `Q` -/
def HasNum (per : Bool) (cl : List Nat) (G : List Cell) (ranks : List RankIn) (outs : List Interp) (Q : Int) (i j : Nat) : Prop :=
  ∃ a r x o q l i0 j0 a0, Num per cl G ranks outs Q i j a r x o q l i0 j0 a0

section world

variable {per : Bool} {cl nl : List Nat} {G : List Cell} {gc : GOM} {ranks : List RankIn} {outs : List Interp}

theorem Num.owns {Q : Int} {i j : Nat} {a : Slot} {r : Nat} {x : RankIn} {o : Interp} {q l i0 j0 : Nat} {a0 : Slot}
    (h : Num per cl G ranks outs Q i j a r x o q l i0 j0 a0) : Owns (lensOf outs) r Q := by
  obtain ⟨h1, h2⟩ := List.getElem?_eq_some_iff.1 h.ho
  refine ⟨by simpa [lensOf] using h1, by rw [h.eq]; omega, ?_⟩
  simp only [lensOf, List.getElem_map, h2]
  have := h.eq
  have := h.lt
  simp only [lensOf] at *
  omega

theorem is_of_owns (hW : World per cl nl G gc ranks outs) {r i : Nat} {x : RankIn} (hx : ranks[r]? = some x) (ho : Owns cl r i) :
    ∃ l, Is cl r x l i := name_exists (hW.holds r x hx).cellMap.faithful (Or.inl ho)

theorem is_of_near (hW : World per cl nl G gc ranks outs) {r i j i' j' : Nat} {a b : Slot} {x : RankIn} (hx : ranks[r]? = some x)
    (ha : IsSlot per G i j a) (hb : IsSlot per G i' j' b) (hs : SameFace per a b) (ho : Owns cl r i) : ∃ l', Is cl r x l' i' := by
  by_cases ho' : Owns cl r i'
  · exact is_of_owns hW hx ho'
  · exact name_exists (hW.holds r x hx).cellMap.faithful (Or.inr ⟨hW.near r x i j i' j' a b hx ha hb hs ho ho', ho'⟩)

theorem rank_exists (hW : World per cl nl G gc ranks outs) {r : Nat} (h : r < cl.length) :
    ∃ x o, ranks[r]? = some x ∧ outs[r]? = some o := by
  have h1 : r < ranks.length := by rw [hW.nranks]; exact h
  have h2 : r < outs.length := by rw [hW.outsLen]; exact h1
  exact ⟨_, _, List.getElem?_eq_getElem h1, List.getElem?_eq_getElem h2⟩

/-- a face of the owner's own slot, or the slot is on a face of a lower rank -/
theorem num_own (hW : World per cl nl G gc ranks outs) {i j : Nat} {a : Slot} (ha : IsSlot per G i j a) {r : Nat} (ho : Owns cl r i) :
    (∃ Q x o q l, Num per cl G ranks outs Q i j a r x o q l i j a) ∨
    ∃ (i' j' ρ : Nat) (b : Slot), IsSlot per G i' j' b ∧ SameFace per a b ∧ Owns cl ρ i' ∧ ρ < r := by
  obtain ⟨x, o, hx, hoo⟩ := rank_exists hW ho.1
  obtain ⟨l, hl⟩ := is_of_owns hW hx ho
  rcases (hW.rank r x o hx hoo).own l i j a hl ha ho with ⟨q, h1, h2⟩ | ⟨_, l', i', j', ρ, b, _, h4, h5, h6, h7⟩
  · exact Or.inl ⟨_, x, o, q, l, ha, hx, hoo, rfl, h1, hl, ho, ha, h2, sf_self hW.toDistributed ha⟩
  · exact Or.inr ⟨i', j', ρ, b, h4, h5, h6, h7⟩

theorem num_exists (hW : World per cl nl G gc ranks outs) {i j : Nat} {a : Slot} (ha : IsSlot per G i j a) :
    ∃ Q, HasNum per cl G ranks outs Q i j := by
  have hD := hW.toDistributed
  obtain ⟨r, ho⟩ := owner_of hD ha
  rcases num_own hW ha ho with ⟨Q, x, o, q, l, h⟩ | ⟨i', j', ρ, b, hb, hs, ho', hlt⟩
  · exact ⟨Q, a, r, x, o, q, l, i, j, a, h⟩
  · rcases num_own hW hb ho' with ⟨Q, x, o, q, l, h⟩ | ⟨i'', j'', ρ', c, hc, hs', ho'', hlt'⟩
    · exact ⟨Q, a, ρ, x, o, q, l, i', j', b, ha, h.hx, h.ho, h.eq, h.lt, h.is, h.own, h.slot0, h.gives, sf_symm hD ha hb hs⟩
    · exfalso
      have hne : ∀ {i i' j j' s s' : Nat}, Owns cl s i → Owns cl s' i' → s ≠ s' → (i, j) ≠ (i', j') := by
        intro i i' j j' s s' h h' hne he
        simp only [Prod.mk.injEq] at he
        obtain ⟨rfl, rfl⟩ := he
        exact hne (owns_unique h h')
      rcases hD.two _ _ _ _ _ _ _ _ _ ha hb hc hs (sf_trans hD ha hb hc hs hs') with e | e | e
      · exact hne ho ho' (by omega) e
      · exact hne ho ho'' (by omega) e
      · exact hne ho' ho'' (by omega) e

theorem Num.of_same (hW : World per cl nl G gc ranks outs) {Q : Int} {i j : Nat} {a : Slot} {r : Nat} {x : RankIn} {o : Interp}
    {q l i0 j0 : Nat} {a0 : Slot} (h : Num per cl G ranks outs Q i j a r x o q l i0 j0 a0) {i' j' : Nat} {b : Slot} (hb : IsSlot per G i' j' b)
    (hs : SameFace per a b) : Num per cl G ranks outs Q i' j' b r x o q l i0 j0 a0 :=
  ⟨hb, h.hx, h.ho, h.eq, h.lt, h.is, h.own, h.slot0, h.gives, sf_trans hW.toDistributed h.slot0 h.slot hb h.same hs⟩

/-- the rank of a face is the lowest of those that own one of its cells -/
theorem Num.low (hW : World per cl nl G gc ranks outs) {Q : Int} {i j : Nat} {a : Slot} {r : Nat} {x : RankIn} {o : Interp}
    {q l i0 j0 : Nat} {a0 : Slot} (h : Num per cl G ranks outs Q i j a r x o q l i0 j0 a0) {s : Nat} (ho : Owns cl s i) : r ≤ s := by
  obtain ⟨l', hl'⟩ := is_of_near hW h.hx h.slot0 h.slot h.same h.own
  have hR := hW.rank r x o h.hx h.ho
  obtain ⟨e, he⟩ := hR.given l' i j a hl' h.slot
  have := hR.same _ _ _ _ _ _ _ _ _ _ h.is h.slot0 hl' h.slot h.same h.gives he
  subst this
  exact hR.low l' i j s q he hl' ho

/-- what the rank of the face has for a slot of a cell it holds -/
theorem Num.local (hW : World per cl nl G gc ranks outs) {Q : Int} {i j : Nat} {a : Slot} {r : Nat} {x : RankIn} {o : Interp}
    {q l i0 j0 : Nat} {a0 : Slot} (h : Num per cl G ranks outs Q i j a r x o q l i0 j0 a0) {l' : Nat} (hl' : Is cl r x l' i) :
    Gives o.c2f l' j (q : Int) := by
  have hR := hW.rank r x o h.hx h.ho
  obtain ⟨e, he⟩ := hR.given l' i j a hl' h.slot
  have := hR.same _ _ _ _ _ _ _ _ _ _ h.is h.slot0 hl' h.slot h.same h.gives he
  subst this
  exact he

theorem Num.unique (hW : World per cl nl G gc ranks outs) {Q Q' : Int} {i j i' j' : Nat} {a a' : Slot} {r r' : Nat} {x x' : RankIn} {o o' : Interp}
    {q l i0 j0 q' l' i0' j0' : Nat} {a0 a0' : Slot} (h : Num per cl G ranks outs Q i j a r x o q l i0 j0 a0)
    (h' : Num per cl G ranks outs Q' i' j' a' r' x' o' q' l' i0' j0' a0') (hs : SameFace per a a') : Q = Q' := by
  have hD := hW.toDistributed
  have hs' : SameFace per a a0' := sf_trans hD h.slot h'.slot h'.slot0 hs (sf_symm hD h'.slot0 h'.slot h'.same)
  have h1 := h.of_same hW h'.slot0 hs'
  have h2 := h'.of_same hW h.slot0 (sf_trans hD h'.slot h.slot h.slot0 (sf_symm hD h.slot h'.slot hs) (sf_symm hD h.slot0 h.slot h.same))
  have e1 := h1.low hW h'.own
  have e2 := h2.low hW h.own
  have : r = r' := by omega
  subst this
  have hx := h.hx
  rw [h'.hx] at hx; cases hx
  have ho := h.ho
  rw [h'.ho] at ho; cases ho
  have := gives_unique (h1.local hW h'.is) h'.gives
  rw [h.eq, h'.eq, this]

theorem Num.same_of (hW : World per cl nl G gc ranks outs) {Q : Int} {i j i' j' : Nat} {a a' : Slot} {r r' : Nat} {x x' : RankIn} {o o' : Interp}
    {q l i0 j0 q' l' i0' j0' : Nat} {a0 a0' : Slot} (h : Num per cl G ranks outs Q i j a r x o q l i0 j0 a0)
    (h' : Num per cl G ranks outs Q i' j' a' r' x' o' q' l' i0' j0' a0') : SameFace per a a' := by
  have hD := hW.toDistributed
  have : r = r' := owns_unique h.owns h'.owns
  subst this
  have hx := h.hx
  rw [h'.hx] at hx; cases hx
  have ho := h.ho
  rw [h'.ho] at ho; cases ho
  have e : q = q' := by have := h.eq; have := h'.eq; omega
  subst e
  have hR := hW.rank r x o h.hx h.ho
  have h0 := hR.back _ _ _ _ _ _ _ _ q h.is h.slot0 h'.is h'.slot0 h.gives h'.gives
  exact sf_trans hD h.slot h.slot0 h'.slot (sf_symm hD h.slot0 h.slot h.same) (sf_trans hD h.slot0 h'.slot0 h'.slot h0 h'.same)

/-- every number is used, by the slot of the first cell of the face -/
theorem num_used (hW : World per cl nl G gc ranks outs) {r : Nat} {Q : Int} (ho : Owns (lensOf outs) r Q) : ∃ i j a x o q l f,
    Num per cl G ranks outs Q i j a r x o q l i j a ∧ o.faces[q]? = some f ∧ f.first = l ∧ f.slot = rename (nameOf x.nodeMap) a := by
  obtain ⟨hr, h1, h2⟩ := ho
  simp only [lensOf, List.getElem_map] at h2
  have hr' : r < outs.length := by simpa [lensOf] using hr
  have hx : r < ranks.length := by rw [← hW.outsLen]; exact hr'
  have hq : (Q - before (lensOf outs) r).toNat < outs[r].faces.length := by simp only [lensOf] at *; omega
  obtain ⟨l, i, j, a, e1, e2, e3, e4, e5, e6, e7⟩ := (hW.rank r _ _ (List.getElem?_eq_getElem hx) (List.getElem?_eq_getElem hr')).face _ _
    (List.getElem?_eq_getElem hq)
  exact ⟨i, j, a, _, _, _, l, _, ⟨e3, List.getElem?_eq_getElem hx, List.getElem?_eq_getElem hr', by simp only [lensOf] at *; omega, hq, e2, e5, e3, e6,
    sf_self hW.toDistributed e3⟩, List.getElem?_eq_getElem hq, e1, e4⟩

/-- a slot of an own cell whose face belongs to another rank: nothing is recorded yet, and the face is sent here -/
theorem Num.away (hW : World per cl nl G gc ranks outs) {Q : Int} {i j : Nat} {a : Slot} {r : Nat} {x : RankIn} {o : Interp}
    {q l i0 j0 : Nat} {a0 : Slot} (h : Num per cl G ranks outs Q i j a r x o q l i0 j0 a0) {s : Nat} (ho : Owns cl s i) (hne : s ≠ r) :
    (∀ y p l', ranks[s]? = some y → outs[s]? = some p → Is cl s y l' i → Gives p.c2f l' j (-1)) ∧
    ∀ row, o.send[s]? = some row → (q : Int) ∈ row := by
  have hR := hW.rank r x o h.hx h.ho
  constructor
  · intro y p l' hy hp hl'
    have hS := hW.rank s y p hy hp
    rcases hS.own l' i j a hl' h.slot ho with ⟨q', h1, h2⟩ | ⟨h1, _⟩
    · exfalso
      have h' : Num per cl G ranks outs _ i j a s y p q' l' i j a := ⟨h.slot, hy, hp, rfl, h1, hl', ho, h.slot, h2, sf_self hW.toDistributed h.slot⟩
      have h0 := h'.of_same hW h.slot0 (sf_symm hW.toDistributed h.slot0 h.slot h.same)
      have := h0.low hW h.own
      have := h.low hW ho
      omega
    · exact h1
  · intro row hrow
    obtain ⟨l', hl'⟩ := is_of_near hW h.hx h.slot0 h.slot h.same h.own
    have hg := h.local hW hl'
    have hf := List.getElem?_eq_getElem h.lt
    rw [hR.sendMem s row hrow q]
    refine ⟨_, hf, hne, l', i, ?_, hl', ho⟩
    rcases hR.sides q _ l' j hf hg with e | e
    · exfalso
      obtain ⟨l1, i1, j1, a1, e1, e2, _, _, e5, _⟩ := hR.face q _ hf
      have : l1 = l' := by omega
      subst this
      have := is_inj (hW.holds r x h.hx) e2 hl'
      subst this
      exact hne (owns_unique ho e5)
    · exact e

open Classical in
/-- the global number of the face of slot `(i, j)` -/
noncomputable def number (per : Bool) (cl : List Nat) (G : List Cell) (ranks : List RankIn) (outs : List Interp) (i j : Nat) : Int :=
  if h : ∃ Q, HasNum per cl G ranks outs Q i j then h.choose else 0

theorem number_spec (hW : World per cl nl G gc ranks outs) {i j : Nat} {a : Slot} (ha : IsSlot per G i j a) :
    HasNum per cl G ranks outs (number per cl G ranks outs i j) i j := by
  have h := num_exists hW ha
  rw [number, dif_pos h]
  exact h.choose_spec

theorem number_eq (hW : World per cl nl G gc ranks outs) {Q : Int} {i j : Nat} (h : HasNum per cl G ranks outs Q i j) :
    number per cl G ranks outs i j = Q := by
  obtain ⟨a, r, x, o, q, l, i0, j0, a0, h⟩ := h
  obtain ⟨a', r', x', o', q', l', i0', j0', a0', h'⟩ := number_spec hW h.slot
  have := slot_unique h.slot h'.slot
  subst this
  exact h'.unique hW h (sf_self hW.toDistributed h.slot)

end world

end DNDSR.Faces
