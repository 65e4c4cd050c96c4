import Verif.Proof.FacesFill

/-! Helper lemmas for `Verif.Props.FacesGhost`: the exchange of the faces. -/

namespace DNDSR.Faces

open DNDSR.Elem DNDSR.IMap DNDSR.MeshAdj DNDSR.Part DNDSR.Tran

section world

variable {per : Bool} {cl nl : List Nat} {G : List Cell} {gc : GOM} {ranks : List RankIn} {outs : List Interp}

/-- `g` is the face with number `Q`, of rank `r`, in global numbers -/
structure GFace (per : Bool) (cl : List Nat) (G : List Cell) (ranks : List RankIn) (outs : List Interp) (Q : Int) (g : Face)
    (r i j : Nat) (a : Slot) : Prop where
  owns : Owns (lensOf outs) r Q
  isSlot : IsSlot per G i j a
  own : Owns cl r i
  num : HasNum per cl G ranks outs Q i j
  slot : g.slot = a
  first : g.first = i
  second : (g.second = unInit ∧ ∀ (i' j' : Nat) (b : Slot), IsSlot per G i' j' b → SameFace per a b → (i', j') = (i, j)) ∨
    ∃ (i' j' : Nat) (b : Slot), g.second = i' ∧ IsSlot per G i' j' b ∧ SameFace per a b ∧ (i', j') ≠ (i, j)

theorem forRanks_eq_map {α β : Type} {f : Nat → α → Res β} {h : α → β} (l : List α) (hf : ∀ (i : Nat) (x : α), l[i]? = some x → f i x = .ok (h x)) :
    forRanks f 0 l = .ok (l.map h) := by
  refine (forRanks_ok _ _ _ _).2 ⟨by simp, ?_⟩
  intro i x hx
  exact ⟨h x, by rw [List.getElem?_map, hx]; rfl, by rw [Nat.zero_add]; exact hf i x hx⟩

/-- nodes of a slot of a held cell -/
theorem slot_nodes (hD : Distributed per cl nl G gc ranks) {r : Nat} {x : RankIn} (hx : ranks[r]? = some x) {l i j : Nat} {a : Slot}
    (hi : Is cl r x l i) (ha : IsSlot per G i j a) : ∀ n ∈ a.nodes, 0 ≤ n ∧ 0 ≤ nameOf x.nodeMap n ∧
      LocalName nl r x.nodeMap.ghostIndex n (nameOf x.nodeMap n) := by
  have hH := hD.holds r x hx
  obtain ⟨C, hC, hj, rfl⟩ := ha
  have hv := (hD.valid _ (List.mem_of_getElem? hC)).1
  have hlt := is_lt hH hi
  have hc := List.getElem?_eq_getElem hlt
  have hL := hH.cells l i _ C hc hC hi
  have ht := good_table C.type hv.known j (List.mem_range.2 hj)
  intro n hn
  simp only [slot, List.mem_map] at hn
  obtain ⟨p, hp, rfl⟩ := hn
  have hpl : p < C.nodes.length := by rw [hv.nodes]; exact ht.2.2.2 p hp
  have hpl' : p < x.cells[l].nodes.length := by rw [hL.len]; exact hpl
  rw [List.getElem?_eq_getElem hpl, Option.getD_some]
  have h0 := hv.range _ (List.getElem_mem hpl)
  obtain ⟨h1, h2⟩ := hL.nodes p _ _ (List.getElem?_eq_getElem hpl) (List.getElem?_eq_getElem hpl')
  rw [nameOf_eq hH.nodeMap.faithful h0.1 h2]
  exact ⟨h0.1, h1, h2⟩

/-- a face of a rank in global numbers -/
theorem toGlobal (hW : World per cl nl G gc ranks outs) {r : Nat} {x : RankIn} {o : Interp} (hx : ranks[r]? = some x) (ho : outs[r]? = some o)
    {q : Nat} {f : Face} (hf : o.faces[q]? = some f) :
    ∃ g, faceToGlobal x f = .ok g ∧ ∃ i j a, GFace per cl G ranks outs (before (lensOf outs) r + q) g r i j a := by
  have hD := hW.toDistributed
  have hH := hD.holds r x hx
  have hR := hW.rank r x o hx ho
  obtain ⟨l, i, j, a, e1, e2, e3, e4, e5, e6, e7⟩ := hR.face q f hf
  have hlt : q < o.faces.length := (List.getElem?_eq_some_iff.1 hf).1
  have hN : Num per cl G ranks outs (before (lensOf outs) r + q) i j a r x o q l i j a :=
    ⟨e3, hx, ho, rfl, hlt, e2, e5, e3, e6, sf_self hD e3⟩
  have hnode := slot_nodes hD hx e2 e3
  have hns : forRanks (fun _ v => x.nodeMap.apply (-1) v) 0 f.slot.nodes = .ok a.nodes := by
    rw [e4]
    have : a.nodes = (rename (nameOf x.nodeMap) a).nodes.map (numberOf x.nodeMap) := by
      have := congrArg Slot.nodes (rename_rename (φ := nameOf x.nodeMap) (ψ := numberOf x.nodeMap) (a := a)
        (global_slot hD hx e2 e3).2)
      simpa [rename] using this.symm
    conv => rhs; rw [this]
    apply forRanks_eq_map
    intro p v hv
    have hmem := List.mem_of_getElem? hv
    simp only [rename, List.mem_map] at hmem
    obtain ⟨n, hn, rfl⟩ := hmem
    obtain ⟨h1, h2, h3⟩ := hnode n hn
    rw [hH.nodeMap.faithful.apply_of_name h3 h1 h2, numberOf_eq hH.nodeMap.faithful h1 h2 h3]
  have hu : Part.unInit < 0 := by decide
  have hcell : ∀ {l i : Nat}, Is cl r x l i → MeshAdj.faceCellToGlobal x.cellMap (l : Int) = .ok (i : Int) := by
    intro l i hi
    rw [MeshAdj.faceCellToGlobal, if_neg (by omega), apply_is hH hi]
  have hslot : ({ f.slot with nodes := a.nodes } : Slot) = a := by rw [e4]; rfl
  rcases e7 with ⟨e7, huniq⟩ | ⟨l', i', j', b, e7, hne, hi', hb, hs, hg⟩
  · refine ⟨⟨a, i, unInit⟩, ?_, i, j, a, hN.owns, e3, e5, ⟨_, _, _, _, _, _, _, _, _, hN⟩, rfl, rfl, Or.inl ⟨rfl, ?_⟩⟩
    · rw [faceToGlobal, hns, Res.ok_bind, e1, hcell e2, Res.ok_bind, e7, hslot]
      rw [MeshAdj.faceCellToGlobal, if_pos (show unInit = Part.unInit from rfl), Res.ok_bind]
    · intro i' j' b hb hs
      obtain ⟨l', hl'⟩ := is_of_near hW hx e3 hb hs e5
      have := (hN.of_same hW hb hs).local hW hl'
      obtain ⟨rfl, rfl⟩ := huniq _ _ this
      rw [is_inj hH hl' e2]
  · refine ⟨⟨a, i, i'⟩, ?_, i, j, a, hN.owns, e3, e5, ⟨_, _, _, _, _, _, _, _, _, hN⟩, rfl, rfl, Or.inr ⟨i', j', b, rfl, hb, hs, ?_⟩⟩
    · rw [faceToGlobal, hns, Res.ok_bind, e1, hcell e2, Res.ok_bind, e7, hcell hi', Res.ok_bind, hslot]
    · intro e
      simp only [Prod.mk.injEq] at e
      obtain ⟨rfl, rfl⟩ := e
      exact hne (by rw [is_unique hH e2 hi'])

/-- a global face in the local numbers of a rank that holds its cells -/
structure LFace (per : Bool) (cl : List Nat) (G : List Cell) (r : Nat) (x : RankIn) (g f : Face) (l : Nat) (a : Slot) : Prop where
  slot : f.slot = rename (nameOf x.nodeMap) a
  first : f.first = l
  second : (g.second = unInit ∧ f.second = unInit) ∨ ∃ l' i' : Nat, g.second = i' ∧ f.second = l' ∧ Is cl r x l' i'

theorem toLocal (hW : World per cl nl G gc ranks outs) {s : Nat} {x : RankIn} (hx : ranks[s]? = some x) {Q : Int} {g : Face} {r i j : Nat} {a : Slot}
    (hg : GFace per cl G ranks outs Q g r i j a) {l : Nat} (hi : Is cl s x l i)
    (hs : ∀ i' : Nat, g.second = i' → ∃ l', Is cl s x l' i') :
    ∃ f, faceToLocal x g = .ok f ∧ LFace per cl G s x g f l a := by
  have hD := hW.toDistributed
  have hH := hD.holds s x hx
  have hnode := slot_nodes hD hx hi hg.isSlot
  have hmf : ∀ {lens : List Nat} {m : Map} (_ : Faithful lens s m) {q v : Int}, 0 ≤ q → 0 ≤ v → LocalName lens s m.ghostIndex q v →
      mustFind m q = .ok v := by
    intro lens m hm q v hq hv hn
    rcases hm.mustFind_eq q with ⟨v', e, _, hn', _⟩ | ⟨h1, h2, _⟩
    · rw [e, hm.name_unique hn' hn]
    · exfalso
      rcases hn with ⟨ho, _⟩ | ⟨_, k, hk, _⟩ | ⟨_, _, e⟩
      · exact h1 ho
      · exact h2 (List.mem_of_getElem? hk)
      · omega
  have hns : forRanks (fun _ q => mustFind x.nodeMap q) 0 g.slot.nodes = .ok (rename (nameOf x.nodeMap) a).nodes := by
    rw [hg.slot]
    apply forRanks_eq_map
    intro p n hn
    obtain ⟨h1, h2, h3⟩ := hnode n (List.mem_of_getElem? hn)
    exact hmf hH.nodeMap.faithful h1 h2 h3
  have hu : Part.unInit < 0 := by decide
  have hcell : ∀ {l i : Nat}, Is cl s x l i → MeshAdj.faceCellToLocal x.cellMap (i : Int) = .ok (l : Int) := by
    intro l i hi
    rw [MeshAdj.faceCellToLocal, if_neg (by omega)]
    exact hmf hH.cellMap.faithful (by omega) (by omega) hi
  have hslot : ({ g.slot with nodes := (rename (nameOf x.nodeMap) a).nodes } : Slot) = rename (nameOf x.nodeMap) a := by rw [hg.slot]; rfl
  rcases hg.second with ⟨e, _⟩ | ⟨i', j', b, e, _⟩
  · refine ⟨⟨rename (nameOf x.nodeMap) a, l, unInit⟩, ?_, rfl, rfl, Or.inl ⟨e, rfl⟩⟩
    rw [faceToLocal, hns, Res.ok_bind, hg.first, hcell hi, Res.ok_bind, e, hslot, MeshAdj.faceCellToLocal, if_pos (show unInit = Part.unInit from rfl), Res.ok_bind]
  · obtain ⟨l', hl'⟩ := hs i' e
    refine ⟨⟨rename (nameOf x.nodeMap) a, l, l'⟩, ?_, rfl, rfl, Or.inr ⟨l', i', e, rfl, hl'⟩⟩
    rw [faceToLocal, hns, Res.ok_bind, hg.first, hcell hi, Res.ok_bind, e, hslot, hcell hl', Res.ok_bind]

/-! ### the push-constructed mapping -/

abbrev pushOf (outs : List Interp) : List (List Int × List Nat) :=
  outs.map (fun o => (o.send.flatten, plainStarts (o.send.map List.length)))

theorem fetch_eq {α : Type} {lens : List Nat} {g : GOM} (hg : Built lens g) {rows : List (List α)} {r : Nat} {Q : Int} (ho : Owns lens r Q)
    {own : List α} (hr : rows[r]? = some own) {y : α} (hy : own[(Q - before lens r).toNat]? = some y) : fetch g rows Q = .ok y := by
  rw [fetch, search_of_owns hg ho, Res.ok_bind]
  simp only [(idx_ok_iff rows r own).2 hr, Res.ok_bind]
  have := ho.2.1
  obtain ⟨z, e1, e2⟩ := at64_eq (l := own) (v := Q - before lens r) (by omega) (by
    have := (List.getElem?_eq_some_iff.1 hy).1; omega)
  rw [hy] at e2; cases e2
  exact e1

theorem push_map (hW : World per cl nl G gc ranks outs) {gf : GOM} (hg : Built (lensOf outs) gf) :
    ∃ maps, createPush gf (lensOf outs) (pushOf outs) = .ok maps ∧ maps.length = outs.length ∧
      ∀ (s : Nat) (m : Map), maps[s]? = some m → Collective (lensOf outs) s m ∧
        ∀ Q : Int, Q ∈ m.ghostIndex ↔ ∃ (r : Nat) (o : Interp) (row : List Int) (q : Nat), outs[r]? = some o ∧ o.send[s]? = some row ∧
          (q : Int) ∈ row ∧ Q = before (lensOf outs) r + q := by
  have hD := hW.toDistributed
  have hrank : ∀ {r : Nat} {o : Interp}, outs[r]? = some o → ∃ x, ranks[r]? = some x := by
    intro r o ho
    have : r < ranks.length := by rw [← hW.outsLen]; exact (List.getElem?_eq_some_iff.1 ho).1
    exact ⟨_, List.getElem?_eq_getElem this⟩
  have hP : ∀ {r : Nat} {p : List Int × List Nat}, (pushOf outs)[r]? = some p → ∃ x o, ranks[r]? = some x ∧ outs[r]? = some o ∧
      p = (o.send.flatten, plainStarts (o.send.map List.length)) := by
    intro r p hp
    rw [List.getElem?_map] at hp
    cases ho : outs[r]? with
    | none => rw [ho] at hp; cases hp
    | some o =>
      rw [ho] at hp; cases hp
      obtain ⟨x, hx⟩ := hrank ho
      exact ⟨x, o, hx, rfl, rfl⟩
  have hmemP : ∀ p ∈ pushOf outs, ∃ (r : Nat) (x : RankIn) (o : Interp), ranks[r]? = some x ∧ outs[r]? = some o ∧
      p = (o.send.flatten, plainStarts (o.send.map List.length)) := by
    intro p hp
    obtain ⟨r, hr⟩ := List.mem_iff_getElem?.1 hp
    obtain ⟨x, o, h⟩ := hP hr
    exact ⟨r, x, o, h⟩
  have hn : (pushOf outs).length = (lensOf outs).length := by simp [lensOf]
  have hz : ∀ p ∈ pushOf outs, p.2[0]? = some 0 := by
    intro p hp
    obtain ⟨r, x, o, _, _, rfl⟩ := hmemP p hp
    simp only
    rw [plainStarts_get _ _ (by omega)]; rfl
  have hv : PushValid (lensOf outs) (pushOf outs) := by
    intro r p hp v hvm
    obtain ⟨x, o, hx, ho, rfl⟩ := hP hp
    obtain ⟨row, hrow, hvr⟩ := List.mem_flatten.1 hvm
    obtain ⟨ρ, hρ⟩ := List.mem_iff_getElem?.1 hrow
    obtain ⟨_, h2⟩ := (hW.rank r x o hx ho).sendSorted ρ row hρ
    obtain ⟨q, rfl, hlt⟩ := h2 v hvr
    exact ⟨by omega, o.faces.length, by rw [List.getElem?_map, ho]; rfl, by omega⟩
  have hst : ∀ p ∈ pushOf outs, ∃ sizes : List Nat, sizes.length = (lensOf outs).length ∧ p.2 = plainStarts sizes ∧ p.1.length = sizes.sum := by
    intro p hp
    obtain ⟨r, x, o, hx, ho, rfl⟩ := hmemP p hp
    refine ⟨o.send.map List.length, ?_, rfl, by simp [List.length_flatten]⟩
    rw [List.length_map, (hW.rank r x o hx ho).sendLen, ← hW.outsLen]; simp [lensOf]
  have hseg : ∀ {r : Nat} {x : RankIn} {o : Interp} {s : Nat}, ranks[r]? = some x → outs[r]? = some o → ∀ row, o.send[s]? = some row →
      segment o.send.flatten (plainStarts (o.send.map List.length)) s = row := by
    intro r x o s _ _ row hrow
    obtain ⟨h1, h2⟩ := List.getElem?_eq_some_iff.1 hrow
    rw [segment_flatten _ _ h1, h2]
  have ha : ∀ p ∈ pushOf outs, ∀ s, (segment p.1 p.2 s).Pairwise (· < ·) := by
    intro p hp s
    obtain ⟨r, x, o, hx, ho, rfl⟩ := hmemP p hp
    by_cases hs : s < o.send.length
    · have hrow := List.getElem?_eq_getElem hs
      simp only
      rw [hseg hx ho _ hrow]
      exact ((hW.rank r x o hx ho).sendSorted s _ hrow).1
    · have : (plainStarts (o.send.map List.length))[s + 1]? = none := by
        apply List.getElem?_eq_none
        rw [plainStarts_length, List.length_map]; omega
      simp only [segment, this]
      cases (plainStarts (o.send.map List.length))[s]? <;> simp
  obtain ⟨maps, hm⟩ := createPush_total hg (pushOf outs) hn hv hst
  obtain ⟨hlen, hall⟩ := createPush_spec hg (pushOf outs) hn hz maps hm
  refine ⟨maps, hm, by rw [hlen]; simp [lensOf], ?_⟩
  intro s m hms
  refine ⟨.push gf (pushOf outs) maps hg hn hz hv ha hm hms, ?_⟩
  have hsl : s < maps.length := (List.getElem?_eq_some_iff.1 hms).1
  have hps := List.getElem?_eq_getElem (show s < (pushOf outs).length by rw [hn, ← hlen]; exact hsl)
  have hgi := (hall s m _ hms hps).2.2.2.2.2.2.2.2.2
  intro Q
  rw [hgi, List.mem_flatten]
  have hsegm : ∀ {r : Nat} {mr : Map} {o : Interp} {x : RankIn} {row : List Int}, maps[r]? = some mr → ranks[r]? = some x → outs[r]? = some o →
      o.send[s]? = some row → segment mr.pushingIndexGlobal mr.pushIndexStarts s = row.map (fun l => (before (lensOf outs) r : Int) + l) := by
    intro r mr o x row hmr hx ho hrow
    have hp : (pushOf outs)[r]? = some (o.send.flatten, plainStarts (o.send.map List.length)) := by rw [List.getElem?_map, ho]; rfl
    obtain ⟨h1, h2, _⟩ := push_constructed_agree hg (pushOf outs) hn hz maps hm r s mr m _ hmr hms hp
    rw [h2, h1, hseg hx ho row hrow]
  have hrow : ∀ {r : Nat} {o : Interp} {x : RankIn}, ranks[r]? = some x → outs[r]? = some o → ∃ row, o.send[s]? = some row := by
    intro r o x hx ho
    have : s < o.send.length := by
      rw [(hW.rank r x o hx ho).sendLen, ← hW.outsLen]
      rw [hlen] at hsl; simpa [lensOf] using hsl
    exact ⟨_, List.getElem?_eq_getElem this⟩
  constructor
  · rintro ⟨seg, h1, h2⟩
    obtain ⟨mr, h3, rfl⟩ := List.mem_map.1 h1
    obtain ⟨r, hr⟩ := List.mem_iff_getElem?.1 h3
    have hrl : r < outs.length := by
      have := (List.getElem?_eq_some_iff.1 hr).1
      rw [hlen] at this; simpa [lensOf] using this
    have ho := List.getElem?_eq_getElem hrl
    obtain ⟨x, hx⟩ := hrank ho
    obtain ⟨row, hrow⟩ := hrow hx ho
    rw [hsegm hr hx ho hrow] at h2
    obtain ⟨v, hv, rfl⟩ := List.mem_map.1 h2
    obtain ⟨_, h5⟩ := (hW.rank r x _ hx ho).sendSorted s row hrow
    obtain ⟨q, rfl, _⟩ := h5 v hv
    exact ⟨r, _, row, q, ho, hrow, hv, rfl⟩
  · rintro ⟨r, o, row, q, ho, hrow, hq, rfl⟩
    obtain ⟨x, hx⟩ := hrank ho
    have hrl : r < maps.length := by
      rw [hlen]; simpa [lensOf] using (List.getElem?_eq_some_iff.1 ho).1
    have hmr := List.getElem?_eq_getElem hrl
    refine ⟨_, List.mem_map.2 ⟨_, List.mem_of_getElem? hmr, rfl⟩, ?_⟩
    rw [hsegm hmr hx ho hrow]
    exact List.mem_map.2 ⟨q, hq, rfl⟩

end world

end DNDSR.Faces
