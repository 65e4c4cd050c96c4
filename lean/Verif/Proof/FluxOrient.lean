import Verif.Proof.FacesFinal

/-! Helper lemmas for `Verif.Props.FluxSum`: the sides of a face are the same on all ranks. -/

namespace DNDSR.Faces

open DNDSR.Elem DNDSR.IMap DNDSR.MeshAdj

variable {per : Bool} {cl nl : List Nat} {G : List Cell} {gc : GOM} {ranks : List RankIn} {outs : List RankOut} {F : Nat → Nat → Int}

/-- the local names of the faces -/
abbrev FName (outs : List RankOut) (s : Nat) (o : RankOut) (q : Int) (v : Int) : Prop :=
  LocalName (outs.map (·.nFaces)) s o.faceMap.ghostIndex q v

theorem rank_of (hN : Numbered per cl nl G ranks outs F) {s : Nat} {x : RankIn} (hx : ranks[s]? = some x) : ∃ o, outs[s]? = some o := by
  have := (List.getElem?_eq_some_iff.1 hx).1
  exact ⟨_, List.getElem?_eq_getElem (by rw [hN.size]; exact this)⟩

theorem rank_of' (hN : Numbered per cl nl G ranks outs F) {s : Nat} {o : RankOut} (ho : outs[s]? = some o) : ∃ x, ranks[s]? = some x := by
  have := (List.getElem?_eq_some_iff.1 ho).1
  exact ⟨_, List.getElem?_eq_getElem (by rw [← hN.size]; exact this)⟩

theorem face_faithful (hN : Numbered per cl nl G ranks outs F) {s : Nat} {o : RankOut} (ho : outs[s]? = some o) :
    Faithful (outs.map (·.nFaces)) s o.faceMap := (hN.maps s o ho).1.faithful

theorem face_lt (hN : Numbered per cl nl G ranks outs F) {s : Nat} {o : RankOut} (ho : outs[s]? = some o) {q v : Int} (hv : 0 ≤ v)
    (h : FName outs s o q v) (hq : 0 ≤ q) : v.toNat < o.faces.length := by
  have h1 := name_lt (face_faithful hN ho) hv h hq
  have h2 := (hN.maps s o ho).2
  have h3 := (face_faithful hN ho).size
  simp only [List.getElem?_map, ho, Option.map_some] at h3
  have := Option.some.inj h3
  omega

/-- two slots of one cell are different faces -/
theorem slots_apart (hD : Distributed per cl nl G gc ranks) {i j j' : Nat} {a b : Slot} (ha : IsSlot per G i j a) (hb : IsSlot per G i j' b)
    (h : SameFace per a b) : j = j' := by
  obtain ⟨C, hC, hj, rfl⟩ := ha
  obtain ⟨C', hC', hj', rfl⟩ := hb
  rw [hC] at hC'; cases hC'
  obtain ⟨hv, hn⟩ := hD.valid C (List.mem_of_getElem? hC)
  have h1 := only_of hC hv hn hj (List.Perm.refl (corners (slot per C j)))
  have h2 := only_of hC hv hn hj' h.2.1
  exact only_unique h1 h2

/-- the other side of a face is a slot of another cell -/
theorem other_cell (hD : Distributed per cl nl G gc ranks) (hN : Numbered per cl nl G ranks outs F) {i j i' j' : Nat} {a b : Slot}
    (ha : IsSlot per G i j a) (hb : IsSlot per G i' j' b) (h : F i j = F i' j') (hne : (i, j) ≠ (i', j')) : i ≠ i' := by
  rintro rfl
  exact hne (by rw [slots_apart hD ha hb ((hN.iff i j i j' a b ha hb).1 h)])

/-- no third side -/
theorem two_sides (hD : Distributed per cl nl G gc ranks) (hN : Numbered per cl nl G ranks outs F) {i j i1 j1 i2 j2 : Nat} {a b c : Slot}
    (ha : IsSlot per G i j a) (hb : IsSlot per G i1 j1 b) (hc : IsSlot per G i2 j2 c) (h1 : F i1 j1 = F i j) (h2 : F i2 j2 = F i j)
    (hn1 : (i1, j1) ≠ (i, j)) (hn2 : (i2, j2) ≠ (i, j)) : (i1, j1) = (i2, j2) := by
  have s1 := (hN.iff i j i1 j1 a b ha hb).1 h1.symm
  have s2 := (hN.iff i j i2 j2 a c ha hc).1 h2.symm
  rcases hD.two i j i1 j1 i2 j2 a b c ha hb hc s1 s2 with h | h | h
  · exact absurd h.symm hn1
  · exact absurd h.symm hn2
  · exact h

/-- `E` gives the first side of every face, on every rank that holds it -/
structure Orient (per : Bool) (cl : List Nat) (G : List Cell) (ranks : List RankIn) (outs : List RankOut) (F : Nat → Nat → Int)
    (E : Int → Nat × Nat) : Prop where
  slot : ∀ q, Global (outs.map (·.nFaces)) q → F (E q).1 (E q).2 = q ∧ ∃ a, IsSlot per G (E q).1 (E q).2 a
  face : ∀ (s : Nat) (x : RankIn) (o : RankOut) (q : Int) (v : Nat) (f : Face), ranks[s]? = some x → outs[s]? = some o →
    Global (outs.map (·.nFaces)) q → FName outs s o q v → o.faces[v]? = some f →
    (∃ l : Nat, f.first = l ∧ Is cl s x l (E q).1) ∧
    ((f.second = unInit ∧ Owns (outs.map (·.nFaces)) s q ∧ ∀ (i' j' : Nat) (b : Slot), IsSlot per G i' j' b → F i' j' = q → (i', j') = E q) ∨
     ∃ (l' i' j' : Nat) (b : Slot), f.second = l' ∧ Is cl s x l' i' ∧ IsSlot per G i' j' b ∧ (i', j') ≠ E q ∧ F i' j' = q)

theorem orient_exists (hD : Distributed per cl nl G gc ranks) (hN : Numbered per cl nl G ranks outs F) : ∃ E, Orient per cl G ranks outs F E := by
  have key : ∀ q : Int, ∃ e : Nat × Nat, Global (outs.map (·.nFaces)) q → F e.1 e.2 = q ∧ (∃ a, IsSlot per G e.1 e.2 a) ∧
      ∀ (s : Nat) (x : RankIn) (o : RankOut) (v : Nat) (f : Face), ranks[s]? = some x → outs[s]? = some o →
      FName outs s o q v → o.faces[v]? = some f →
      (∃ l : Nat, f.first = l ∧ Is cl s x l e.1) ∧
      ((f.second = unInit ∧ Owns (outs.map (·.nFaces)) s q ∧ ∀ (i' j' : Nat) (b : Slot), IsSlot per G i' j' b → F i' j' = q → (i', j') = e) ∨
       ∃ (l' i' j' : Nat) (b : Slot), f.second = l' ∧ Is cl s x l' i' ∧ IsSlot per G i' j' b ∧ (i', j') ≠ e ∧ F i' j' = q) := by
    intro q
    by_cases hq : Global (outs.map (·.nFaces)) q
    · obtain ⟨ρ, hρ⟩ := owns_exists hq.1 hq.2
      have hρl : ρ < outs.length := by have := hρ.1; simpa using this
      have ho := List.getElem?_eq_getElem hρl
      obtain ⟨x, hx⟩ := rank_of' hN ho
      have hFa := face_faithful hN ho
      have h1 := (hFa.owns_iff q).1 hρ
      have hname : FName outs ρ outs[ρ] q ((q - before (outs.map (·.nFaces)) ρ).toNat : Nat) := Or.inl ⟨hρ, by omega⟩
      have hlt := face_lt hN ho (by omega) hname hq.1
      rw [Int.toNat_natCast] at hlt
      have hf := List.getElem?_eq_getElem hlt
      obtain ⟨l, i, j, a, e1, e2, ha, e3, _, e4, e5⟩ := hN.faces ρ x _ _ _ hx ho hf
      have hFq : F i j = q := name_inj hFa (by omega) (hN.range i j a ha).1 hq.1 e3 hname
      refine ⟨(i, j), fun _ => ⟨hFq, ⟨a, ha⟩, ?_⟩⟩
      intro s y p v f hy hp hv hfv
      obtain ⟨l1, i1, j1, a1, d1, d2, ha1, d3, _, d4, d5⟩ := hN.faces s y p v f hy hp hfv
      have hFq1 : F i1 j1 = q := name_inj (face_faithful hN hp) (by omega) (hN.range i1 j1 a1 ha1).1 hq.1 d3 hv
      by_cases hs : s = ρ
      · subst hs
        rw [hx] at hy; cases hy
        rw [ho] at hp; cases hp
        have : v = (q - before (outs.map (·.nFaces)) s).toNat := by
          have := hFa.name_unique hv hname; omega
        subst this
        rw [hf] at hfv; cases hfv
        refine ⟨⟨l, e1, e2⟩, ?_⟩
        rcases e5 with ⟨e6, e7, e8⟩ | ⟨l', i', j', b, e6, e7, hb, e8, e9, _⟩
        · exact Or.inl ⟨e6, by rw [hFq] at e7; exact e7, fun i' j' b hb hF => e8 i' j' b hb (by rw [hF, hFq])⟩
        · exact Or.inr ⟨l', i', j', b, e6, e7, hb, e8, by rw [e9, hFq]⟩
      · have hns : ¬ Owns (outs.map (·.nFaces)) s (F i1 j1) := by
          rw [hFq1]; intro h; exact hs (owns_unique h hρ)
        rcases d5 with ⟨_, d7, _⟩ | ⟨l', i', j', b, d6, d7, hb, d8, d9, d10⟩
        · exact absurd d7 hns
        · have hoi' := d10.resolve_left hns
          have hoi := e4 ρ (by rw [hFq]; exact hρ)
          have heq : (i, j) = (i1, j1) := by
            by_cases h : (i, j) = (i1, j1)
            · exact h
            · exfalso
              have := two_sides hD hN ha1 ha hb (by rw [hFq, hFq1]) d9 h d8
              cases this
              exact hs (owns_unique hoi' hoi)
          cases heq
          exact ⟨⟨l1, d1, d2⟩, Or.inr ⟨l', i', j', b, d6, d7, hb, d8, by rw [d9, hFq]⟩⟩
    · exact ⟨(0, 0), fun h => absurd h hq⟩
  choose E hE using key
  exact ⟨E, fun q hq => ⟨(hE q hq).1, (hE q hq).2.1⟩, fun s x o q v f hx ho hq hv hf => (hE q hq).2.2 s x o v f hx ho hv hf⟩

/-- the face in the row of an own cell -/
theorem own_face (hN : Numbered per cl nl G ranks outs F) {s : Nat} {x : RankIn} {o : RankOut} (hx : ranks[s]? = some x) (ho : outs[s]? = some o)
    {l i j : Nat} {a : Slot} (hi : Is cl s x l i) (hoi : Owns cl s i) (ha : IsSlot per G i j a) :
    ∃ (v : Nat) (f : Face), Gives o.c2f l j (v : Int) ∧ FName outs s o (F i j) v ∧ o.faces[v]? = some f := by
  obtain ⟨v, h1, h2, h3⟩ := hN.local_ s x o l i j a hx ho hi ha
  have hv := h3 hoi
  have hlt := face_lt hN ho hv h2 (hN.range i j a ha).1
  refine ⟨v.toNat, _, ?_, ?_, List.getElem?_eq_getElem hlt⟩ <;> rw [Int.toNat_of_nonneg hv] <;> assumption

/-- the number of a face a rank holds -/
theorem face_number (hN : Numbered per cl nl G ranks outs F) {s : Nat} {x : RankIn} {o : RankOut} (hx : ranks[s]? = some x) (ho : outs[s]? = some o)
    {v : Nat} {f : Face} (hf : o.faces[v]? = some f) : ∃ q, Global (outs.map (·.nFaces)) q ∧ FName outs s o q v := by
  obtain ⟨l, i, j, a, _, _, ha, h, _⟩ := hN.faces s x o v f hx ho hf
  exact ⟨_, hN.range i j a ha, h⟩

end DNDSR.Faces
