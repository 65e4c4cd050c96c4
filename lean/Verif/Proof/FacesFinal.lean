import Verif.Proof.FacesExchange

/-! Helper lemmas for `Verif.Props.FacesGhost`: one rank after the exchange. -/

namespace DNDSR.Faces

open DNDSR.Elem DNDSR.IMap DNDSR.MeshAdj DNDSR.Part DNDSR.Tran

section world

variable {per : Bool} {cl nl : List Nat} {G : List Cell} {gc : GOM} {ranks : List RankIn} {outs : List Interp}

theorem hasNum_unique (hW : World per cl nl G gc ranks outs) {Q Q' : Int} {i j i' j' : Nat} {a b : Slot}
    (h : HasNum per cl G ranks outs Q i j) (h' : HasNum per cl G ranks outs Q' i' j') (ha : IsSlot per G i j a) (hb : IsSlot per G i' j' b)
    (hs : SameFace per a b) : Q = Q' := by
  obtain ⟨a1, _, _, _, _, _, _, _, _, h⟩ := h
  obtain ⟨a2, _, _, _, _, _, _, _, _, h'⟩ := h'
  rw [slot_unique ha h.slot, slot_unique hb h'.slot] at hs
  exact h.unique hW h' hs

theorem hasNum_same (hW : World per cl nl G gc ranks outs) {Q : Int} {i j i' j' : Nat} {a b : Slot}
    (h : HasNum per cl G ranks outs Q i j) (h' : HasNum per cl G ranks outs Q i' j') (ha : IsSlot per G i j a) (hb : IsSlot per G i' j' b) :
    SameFace per a b := by
  obtain ⟨a1, _, _, _, _, _, _, _, _, h⟩ := h
  obtain ⟨a2, _, _, _, _, _, _, _, _, h'⟩ := h'
  rw [slot_unique ha h.slot, slot_unique hb h'.slot]
  exact h.same_of hW h'

theorem hasNum_of_same (hW : World per cl nl G gc ranks outs) {Q : Int} {i j i' j' : Nat} {a b : Slot}
    (h : HasNum per cl G ranks outs Q i j) (ha : IsSlot per G i j a) (hb : IsSlot per G i' j' b) (hs : SameFace per a b) :
    HasNum per cl G ranks outs Q i' j' := by
  obtain ⟨a1, r, x, o, q, l, i0, j0, a0, h⟩ := h
  rw [slot_unique ha h.slot] at hs
  exact ⟨b, r, x, o, q, l, i0, j0, a0, h.of_same hW hb hs⟩

/-- a face sent to rank `s` has a second cell, owned by `s`, and a first one, owned by the other rank -/
theorem ghost_face (hW : World per cl nl G gc ranks outs) {s : Nat} {m : Map}
    (hmem : ∀ Q : Int, Q ∈ m.ghostIndex ↔ ∃ (r : Nat) (o : Interp) (row : List Int) (q : Nat), outs[r]? = some o ∧ o.send[s]? = some row ∧
          (q : Int) ∈ row ∧ Q = before (lensOf outs) r + q) {Q : Int} (hQ : Q ∈ m.ghostIndex) {g : Face} {r i j : Nat} {a : Slot}
    (hg : GFace per cl G ranks outs Q g r i j a) : s ≠ r ∧ ∃ (i' j' : Nat) (b : Slot), g.second = i' ∧ IsSlot per G i' j' b ∧ SameFace per a b ∧
      (i', j') ≠ (i, j) ∧ Owns cl s i' := by
  have hD := hW.toDistributed
  obtain ⟨r1, o, row, q, ho, hrow, hq, rfl⟩ := (hmem Q).1 hQ
  have hrl : r1 < ranks.length := by rw [← hW.outsLen]; exact (List.getElem?_eq_some_iff.1 ho).1
  have hx := List.getElem?_eq_getElem hrl
  have hR := hW.rank r1 _ o hx ho
  obtain ⟨f, hf, hne, l2, i2, e1, e2, e3⟩ := (hR.sendMem s row hrow q).1 hq
  obtain ⟨l0, i0, j0, a0, f1, f2, f3, f4, f5, f6, f7⟩ := hR.face q f hf
  have hlt : q < o.faces.length := (List.getElem?_eq_some_iff.1 hf).1
  have hN : Num per cl G ranks outs (before (lensOf outs) r1 + q) i0 j0 a0 r1 _ o q l0 i0 j0 a0 :=
    ⟨f3, hx, ho, rfl, hlt, f2, f5, f3, f6, sf_self hD f3⟩
  have : r = r1 := owns_unique hg.owns hN.owns
  subst this
  refine ⟨hne, ?_⟩
  have hu := unInit_neg
  rcases f7 with ⟨f7, _⟩ | ⟨l', i', j', b, f7, hne', hi', hb, hs', hgv⟩
  · omega
  · have : l' = l2 := by omega
    subst this
    have := is_inj (hW.holds r _ hx) e2 hi'
    subst this
    -- the slot (i', j') has number Q
    have hnb : HasNum per cl G ranks outs (before (lensOf outs) r + q) i2 j' := ⟨_, _, _, _, _, _, _, _, _, hN.of_same hW hb hs'⟩
    have hsab := hasNum_same hW hg.num hnb hg.isSlot hb
    have hij : (i2, j') ≠ (i, j) := by
      intro e
      simp only [Prod.mk.injEq] at e
      obtain ⟨rfl, rfl⟩ := e
      exact hne (owns_unique e3 hg.own)
    rcases hg.second with ⟨_, hu'⟩ | ⟨i3, j3, c, h1, h2, h3, h4⟩
    · exact absurd (hu' _ _ _ hb hsab) hij
    · rcases hD.two _ _ _ _ _ _ _ _ _ hg.isSlot hb h2 hsab h3 with e | e | e
      · exact absurd e.symm hij
      · exact absurd e.symm h4
      · simp only [Prod.mk.injEq] at e
        obtain ⟨rfl, rfl⟩ := e
        exact ⟨i2, j', b, h1, hb, hsab, hij, e3⟩

/-- what is known of the cells of a rank -/
theorem local_cell (hD : Distributed per cl nl G gc ranks) {r : Nat} {x : RankIn} (hx : ranks[r]? = some x) {l : Nat} {c : Cell} (hc : x.cells[l]? = some c) :
    Valid per x.nNodes c ∧ c.nodes.Nodup := by
  have hH := hD.holds r x hx
  refine ⟨local_valid hD hx c (List.mem_of_getElem? hc), ?_⟩
  obtain ⟨i, hi, hg⟩ := is_of_lt hH (List.getElem?_eq_some_iff.1 hc).1
  have hiG : i < G.length := by rw [hD.len]; have := hg.2; omega
  have hC := List.getElem?_eq_getElem hiG
  have hL := hH.cells l i c _ hc hC hi
  obtain ⟨hv, hnd⟩ := hD.valid _ (List.getElem_mem hiG)
  rw [List.nodup_iff_injective_getElem]
  rintro ⟨p, hp⟩ ⟨p', hp'⟩ he
  simp only at he
  have q1 : p < G[i].nodes.length := by rw [← hL.len]; exact hp
  have q2 : p' < G[i].nodes.length := by rw [← hL.len]; exact hp'
  obtain ⟨a1, a2⟩ := hL.nodes p _ _ (List.getElem?_eq_getElem q1) (List.getElem?_eq_getElem hp)
  obtain ⟨b1, b2⟩ := hL.nodes p' _ _ (List.getElem?_eq_getElem q2) (List.getElem?_eq_getElem hp')
  rw [← he] at b2
  have := name_inj hH.nodeMap.faithful a1 (hv.range _ (List.getElem_mem q1)).1 (hv.range _ (List.getElem_mem q2)).1 a2 b2
  have := (List.Nodup.getElem_inj_iff hnd).1 this
  exact Fin.ext this

/-- the corners of a face lead to the slot -/
theorem on_of (hD : Distributed per cl nl G gc ranks) {s : Nat} {x : RankIn} (hx : ranks[s]? = some x) {l0 i0 j0 l i j : Nat} {a b : Slot}
    (h0 : Is cl s x l0 i0) (ha : IsSlot per G i0 j0 a) (hi : Is cl s x l i) (hb : IsSlot per G i j b) (hs : SameFace per a b) {f : Face}
    (hf : f.slot = rename (nameOf x.nodeMap) a) (hl : f.first = l ∨ f.second = l) : On x.cells f l j := by
  refine ⟨hl, ?_⟩
  obtain ⟨c0, hc0, hj0, e0⟩ := (global_slot hD hx h0 ha).1
  obtain ⟨c, hc, hj, e⟩ := (global_slot hD hx hi hb).1
  have hgood : Good per x.nNodes f.slot := by
    rw [hf, e0]; exact slot_good (local_cell hD hx hc0).1 hj0
  refine ⟨_, sortedVerts_eq hgood, ?_⟩
  obtain ⟨hv, hn⟩ := local_cell hD hx hc
  refine only_of hc hv hn hj ?_
  rw [hf, ← e, corners_rename, corners_rename]
  exact hs.2.1.map _

/-- `cell2face` of a rank after the ghost faces are written -/
theorem rank_fill (hW : World per cl nl G gc ranks outs) {s : Nat} {x : RankIn} {o : Interp} {m : Map} (hx : ranks[s]? = some x)
    (ho : outs[s]? = some o) (hm : Faithful (lensOf outs) s m)
    (hmem : ∀ Q : Int, Q ∈ m.ghostIndex ↔ ∃ (r : Nat) (o : Interp) (row : List Int) (q : Nat), outs[r]? = some o ∧ o.send[s]? = some row ∧
          (q : Int) ∈ row ∧ Q = before (lensOf outs) r + q)
    {sons son : List Face} (hlen : sons.length = m.ghostIndex.length) (hlen' : son.length = sons.length)
    (hsons : ∀ (k : Nat) (Q : Int) (g : Face), m.ghostIndex[k]? = some Q → sons[k]? = some g → ∃ r i j a, GFace per cl G ranks outs Q g r i j a)
    (hson : ∀ (k : Nat) (g f : Face), sons[k]? = some g → son[k]? = some f → faceToLocal x g = .ok f) :
    ∃ c2f, fillFaces x.cells x.nOwn o.faces.length o.c2f son = .ok c2f ∧ Shaped x.cells c2f ∧
      (∀ (l j : Nat) (e : Int), Gives c2f l j e → e = unInit ∨ e = -1 ∨ (0 ≤ e ∧ e < m.mainSize + m.ghostIndex.length)) ∧
      ∀ (l i j : Nat) (a : Slot), Is cl s x l i → Owns cl s i → IsSlot per G i j a →
        ∃ v, Gives c2f l j v ∧ 0 ≤ v ∧ LocalName (lensOf outs) s m.ghostIndex (number per cl G ranks outs i j) v := by
  have hD := hW.toDistributed
  have hH := hD.holds s x hx
  have hR := hW.rank s x o hx ho
  have hms : m.mainSize = o.faces.length := by
    have := hm.size
    rw [List.getElem?_map, ho] at this
    simp only [Option.map_some, Option.some.injEq] at this
    exact this.symm
  -- one ghost face
  have key : ∀ (k : Nat) (Q : Int) (f : Face), m.ghostIndex[k]? = some Q → son[k]? = some f →
      ∃ l1 i1 j1 a l2 i2 j2 b, IsSlot per G i1 j1 a ∧ IsSlot per G i2 j2 b ∧ SameFace per a b ∧ HasNum per cl G ranks outs Q i1 j1 ∧
        HasNum per cl G ranks outs Q i2 j2 ∧ Is cl s x l1 i1 ∧ Is cl s x l2 i2 ∧ ¬ Owns cl s i1 ∧ Owns cl s i2 ∧ (i2, j2) ≠ (i1, j1) ∧
        Fillable x.cells x.nOwn f l1 j1 l2 j2 ∧ ¬ Owns (lensOf outs) s Q := by
    intro k Q f hQ hf
    have hkl : k < sons.length := by rw [← hlen']; exact (List.getElem?_eq_some_iff.1 hf).1
    have hg := List.getElem?_eq_getElem hkl
    obtain ⟨r, i, j, a, hG⟩ := hsons k Q _ hQ hg
    have hloc := hson k _ f hg hf
    obtain ⟨hne, i', j', b, e1, hb, hs, hij, ho'⟩ := ghost_face hW hmem (List.mem_of_getElem? hQ) hG
    obtain ⟨l2, hl2⟩ := is_of_owns hW hx ho'
    obtain ⟨l1, hl1⟩ := is_of_near hW hx hb hG.isSlot (sf_symm hD hG.isSlot hb hs) ho'
    obtain ⟨f', ef, hLF⟩ := toLocal hW hx hG hl1 (fun i3 e3 => by
      have : i3 = i' := by omega
      subst this; exact ⟨l2, hl2⟩)
    rw [hloc] at ef; cases ef
    have hu := unInit_neg
    have hsec : f.second = l2 := by
      rcases hLF.second with ⟨e, _⟩ | ⟨l', i3, e, e', hi3⟩
      · omega
      · have : i3 = i' := by omega
        subst this
        rw [e', is_unique hH hi3 hl2]
    have hno : ¬ Owns cl s i := fun hc => hne (owns_unique hc hG.own)
    refine ⟨l1, i, j, a, l2, i', j', b, hG.isSlot, hb, hs, hG.num, hasNum_of_same hW hG.num hG.isSlot hb hs, hl1, hl2, hno, ho', hij,
      ⟨hLF.first, hsec, ?_, ?_, ?_, ?_⟩, fun hc => hne (owns_unique hc hG.owns)⟩
    · have := is_own hH hl1
      by_contra hc
      exact hno (this.1 (by omega))
    · intro e
      simp only [Prod.mk.injEq] at e
      obtain ⟨rfl, rfl⟩ := e
      exact hij (by rw [is_inj hH hl1 hl2])
    · exact on_of hD hx hl1 hG.isSlot hl1 hG.isSlot (sf_self hD hG.isSlot) hLF.slot (Or.inl hLF.first)
    · exact on_of hD hx hl1 hG.isSlot hl2 hb hs hLF.slot (Or.inr hsec)
  -- a slot a ghost face is written to has its number
  have onNum : ∀ (k : Nat) (Q : Int) (f : Face) (l j : Nat), m.ghostIndex[k]? = some Q → son[k]? = some f → On x.cells f l j →
      ∃ i a, Is cl s x l i ∧ IsSlot per G i j a ∧ HasNum per cl G ranks outs Q i j ∧ Gives o.c2f l j (-1) ∧ ¬ Owns (lensOf outs) s Q := by
    intro k Q f l j hQ hf hon
    obtain ⟨l1, i1, j1, a, l2, i2, j2, b, ha, hb, hs, hn1, hn2, hl1, hl2, hno, ho', hij, hF, hnQ⟩ := key k Q f hQ hf
    have hg2 : Gives o.c2f l2 j2 (-1) := by
      obtain ⟨a', r', x', o', q', l', i0', j0', a0', hN⟩ := hn2
      refine (hN.away hW ho' ?_).1 x o l2 hx ho hl2
      rintro rfl
      exact hnQ hN.owns
    have hg1 : Gives o.c2f l1 j1 (-1) := by
      obtain ⟨e, he⟩ := hR.given l1 i1 j1 a hl1 ha
      rw [← hR.same _ _ _ _ _ _ _ _ _ _ hl1 ha hl2 hb hs he hg2]; exact he
    obtain ⟨h1, V, hV, h3⟩ := hon
    rcases h1 with h1 | h1
    · have : l = l1 := by have := hF.first; omega
      subst this
      obtain ⟨_, V', hV', h3'⟩ := hF.on1
      rw [hV] at hV'; cases hV'
      rw [only_unique h3 h3']
      exact ⟨i1, a, hl1, ha, hn1, hg1, hnQ⟩
    · have : l = l2 := by have := hF.second; omega
      subst this
      obtain ⟨_, V', hV', h3'⟩ := hF.on2
      rw [hV] at hV'; cases hV'
      rw [only_unique h3 h3']
      exact ⟨i2, b, hl2, hb, hn2, hg2, hnQ⟩
  have hQof : ∀ {k : Nat} {f : Face}, son[k]? = some f → ∃ Q, m.ghostIndex[k]? = some Q := by
    intro k f hf
    have : k < m.ghostIndex.length := by rw [← hlen, ← hlen']; exact (List.getElem?_eq_some_iff.1 hf).1
    exact ⟨_, List.getElem?_eq_getElem this⟩
  have hsorted : m.ghostIndex.Pairwise (· < ·) := hm.loc.sorted
  obtain ⟨c2f, e, hS, hgv⟩ := fillFaces_spec (cells := x.cells) (nOwn := x.nOwn) son o.faces.length o.c2f ⟨hR.size, hR.width⟩
    (by
      intro f hf
      obtain ⟨k, hk⟩ := List.mem_iff_getElem?.1 hf
      obtain ⟨Q, hQ⟩ := hQof hk
      obtain ⟨l1, i1, j1, a, l2, i2, j2, b, _, _, _, _, _, _, _, _, _, _, hF, _⟩ := key k Q f hQ hk
      refine ⟨⟨l1, j1, l2, j2, hF⟩, fun l j hon => ?_⟩
      obtain ⟨_, _, _, _, _, h, _⟩ := onNum k Q f l j hQ hk hon
      exact h)
    (by
      rw [List.pairwise_iff_getElem]
      intro k k' hk hk' hlt l j hon hon'
      obtain ⟨Q, hQ⟩ := hQof (List.getElem?_eq_getElem hk)
      obtain ⟨Q', hQ'⟩ := hQof (List.getElem?_eq_getElem hk')
      obtain ⟨i, a, hi, ha, hn, _⟩ := onNum k Q _ l j hQ (List.getElem?_eq_getElem hk) hon
      obtain ⟨i', a', hi', ha', hn', _⟩ := onNum k' Q' _ l j hQ' (List.getElem?_eq_getElem hk') hon'
      have := is_inj hH hi hi'
      subst this
      have := slot_unique ha ha'
      subst this
      have hEq := hasNum_unique hW hn hn' ha ha (sf_self hD ha)
      obtain ⟨p1, p2⟩ := List.getElem?_eq_some_iff.1 hQ
      obtain ⟨p3, p4⟩ := List.getElem?_eq_some_iff.1 hQ'
      have := List.pairwise_iff_getElem.1 hsorted k k' p1 p3 hlt
      omega)
  refine ⟨c2f, e, hS, ?_, ?_⟩
  · intro l j v hv
    rcases (hgv l j v).1 hv with ⟨k, f, h1, _, rfl⟩ | ⟨_, h⟩
    · obtain ⟨Q, hQ⟩ := hQof h1
      have := (List.getElem?_eq_some_iff.1 hQ).1
      exact Or.inr (Or.inr ⟨by omega, by omega⟩)
    · rcases hR.entry l j v h with h | h | ⟨q, rfl, h⟩
      · exact Or.inl h
      · exact Or.inr (Or.inl h)
      · exact Or.inr (Or.inr ⟨by omega, by omega⟩)
  · intro l i j a hi hown ha
    have hnum := number_spec hW ha
    generalize number per cl G ranks outs i j = Q at hnum ⊢
    obtain ⟨a', r, x', o', q, l0, i0, j0, a0, hN⟩ := id hnum
    have := slot_unique ha hN.slot
    subst this
    by_cases hrs : r = s
    · subst hrs
      have hx' := hN.hx
      rw [hx] at hx'; cases hx'
      have ho' := hN.ho
      rw [ho] at ho'; cases ho'
      refine ⟨q, (hgv l j q).2 (Or.inr ⟨?_, hN.local hW hi⟩), by omega, Or.inl ⟨hN.owns, by have := hN.eq; omega⟩⟩
      intro f hf hon
      obtain ⟨k, hk⟩ := List.mem_iff_getElem?.1 hf
      obtain ⟨Q', hQ'⟩ := hQof hk
      obtain ⟨i', a', hi', ha', hn', _, hno⟩ := onNum k Q' f l j hQ' hk hon
      have := is_inj hH hi hi'
      subst this
      have := slot_unique ha ha'
      subst this
      have := hasNum_unique hW hn' hnum ha ha (sf_self hD ha)
      rw [this] at hno
      exact hno hN.owns
    · obtain ⟨_, haw⟩ := hN.away hW hown (fun e => hrs e.symm)
      have hsl : s < o'.send.length := by
        rw [(hW.rank r x' o' hN.hx hN.ho).sendLen]; exact (List.getElem?_eq_some_iff.1 hx).1
      have hin : Q ∈ m.ghostIndex := (hmem Q).2 ⟨r, o', _, q, hN.ho, List.getElem?_eq_getElem hsl, haw _ (List.getElem?_eq_getElem hsl), hN.eq⟩
      obtain ⟨k, hk⟩ := List.mem_iff_getElem?.1 hin
      have hkl : k < son.length := by rw [hlen', hlen]; exact (List.getElem?_eq_some_iff.1 hk).1
      have hf := List.getElem?_eq_getElem hkl
      obtain ⟨l1, i1, j1, a1, l2, i2, j2, b, ha1, hb, hs, hn1, hn2, hl1, hl2, hno, ho', hij, hF, hnQ⟩ := key k Q _ hk hf
      have hs1 := hasNum_same hW hnum hn1 ha ha1
      have hs2 := hasNum_same hW hnum hn2 ha hb
      have hijeq : (i, j) = (i2, j2) := by
        rcases hD.two _ _ _ _ _ _ _ _ _ ha ha1 hb hs1 hs2 with e | e | e
        · simp only [Prod.mk.injEq] at e
          rw [e.1] at hown
          exact absurd hown hno
        · exact e
        · exact absurd e.symm hij
      simp only [Prod.mk.injEq] at hijeq
      obtain ⟨rfl, rfl⟩ := hijeq
      have := is_unique hH hi hl2
      subst this
      refine ⟨o.faces.length + k, (hgv l j _).2 (Or.inl ⟨k, _, hf, hF.on2, rfl⟩), by omega,
        Or.inr (Or.inl ⟨hnQ, k, hk, _, hm.size, by rw [hms]⟩)⟩

end world

end DNDSR.Faces
