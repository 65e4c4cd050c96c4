import Verif.Proof.FaceZones

/-! Helper lemmas for `Verif.Props.FaceZones`: which own face a boundary element of a rank is on. -/

namespace DNDSR.Faces

open DNDSR.Elem DNDSR.IMap DNDSR.MeshAdj DNDSR.Part
open DNDSR.Per (isPeriodic)

section world

variable {per : Bool} {cl nl : List Nat} {G : List Cell} {gc : GOM} {ranks : List RankIn} {ins : List Interp} {bnds : List (List BndRow)}
  {Z : Nat → Nat → Option Info} {r : Nat} {x : RankIn} {p : Interp} {bs : List BndRow}

/-- slots of one cell with the same nodes are the same -/
theorem slot_of_nodes (hD : Distributed per cl nl G gc ranks) {i j j' : Nat} {a b : Slot} (ha : IsSlot per G i j a) (hb : IsSlot per G i j' b)
    (h : a.nodes.Perm b.nodes) : j = j' := by
  obtain ⟨C, hC, hj, rfl⟩ := ha
  obtain ⟨C', hC', hj', rfl⟩ := hb
  rw [hC] at hC'; cases hC'
  obtain ⟨hv, hn⟩ := hD.valid C (List.mem_of_getElem? hC)
  refine slots_differ C.type hv.known j (List.mem_range.2 hj) j' (List.mem_range.2 hj') ?_
  intro k hk
  have hk := List.mem_of_mem_take hk
  have ht := good_table C.type hv.known j (List.mem_range.2 hj)
  have ht' := good_table C.type hv.known j' (List.mem_range.2 hj')
  have lk : k < C.nodes.length := by rw [hv.nodes]; exact ht.2.2.2 k hk
  have hm : C.nodes[k]?.getD 0 ∈ (slot per C j).nodes := List.mem_map.2 ⟨k, hk, rfl⟩
  have := h.mem_iff.1 hm
  simp only [slot] at this
  obtain ⟨k', hk', e⟩ := List.mem_map.1 this
  have lk' : k' < C.nodes.length := by rw [hv.nodes]; exact ht'.2.2.2 k' hk'
  simp only [List.getElem?_eq_getElem lk, List.getElem?_eq_getElem lk', Option.getD_some] at e
  have := (List.Nodup.getElem_inj_iff hn).1 e
  rw [← this]; exact hk'

theorem localSlot_nodes (hD : Distributed per cl nl G gc ranks) (hx : ranks[r]? = some x) {l i j : Nat} {a s : Slot} (hi : Is cl r x l i)
    (ha : IsSlot per G i j a) (h : LocalSlot nl r x.nodeMap.ghostIndex a s) : s.nodes = a.nodes.map (nameOf x.nodeMap) := by
  refine List.ext_getElem (by simp [h.len]) ?_
  intro k h1 h2
  have hk : k < a.nodes.length := by simpa using h2
  obtain ⟨h0, hn⟩ := h.nodes k _ _ (List.getElem?_eq_getElem hk) (List.getElem?_eq_getElem h1)
  rw [List.getElem_map]
  exact (nameOf_eq (hD.holds r x hx).nodeMap.faithful (slot_nodes hD hx hi ha _ (List.getElem_mem hk)).1 hn).symm

/-- renamed slots have the same nodes only if the slots do -/
theorem perm_of_names (hD : Distributed per cl nl G gc ranks) (hx : ranks[r]? = some x) {l i j l' i' j' : Nat} {a b : Slot} (hi : Is cl r x l i)
    (ha : IsSlot per G i j a) (hi' : Is cl r x l' i') (hb : IsSlot per G i' j' b)
    (h : (a.nodes.map (nameOf x.nodeMap)).Perm (b.nodes.map (nameOf x.nodeMap))) : a.nodes.Perm b.nodes := by
  have h2 := h.map (numberOf x.nodeMap)
  have e : ∀ {l i j : Nat} {a : Slot}, Is cl r x l i → IsSlot per G i j a → (a.nodes.map (nameOf x.nodeMap)).map (numberOf x.nodeMap) = a.nodes := by
    intro l i j a hi ha
    have h4 := (global_slot hD hx hi ha).2
    rw [List.map_map]
    conv => rhs; rw [← List.map_id a.nodes]
    exact List.map_congr_left (fun n hn => h4 n hn)
  rw [e hi ha, e hi' hb] at h2
  exact h2

theorem sits_unique (hD : Distributed per cl nl G gc ranks) (hx : ranks[r]? = some x) {b : BndRow} {i j i' j' : Nat}
    (h : Sits per cl nl G r x b i j) (h' : Sits per cl nl G r x b i' j') : i = i' ∧ j = j' := by
  obtain ⟨l, a, s, e, hi, ha, hs, hp⟩ := h
  obtain ⟨l', a', s', e', hi', ha', hs', hp'⟩ := h'
  have : l = l' := by omega
  subst this
  have := is_inj (hD.holds r x hx) hi hi'
  subst this
  refine ⟨rfl, slot_of_nodes hD ha ha' (perm_of_names hD hx hi ha hi' ha' ?_)⟩
  rw [← localSlot_nodes hD hx hi ha hs, ← localSlot_nodes hD hx hi' ha' hs']
  exact hp.symm.trans hp'

/-- element `k` of the rank is on its own face `q` -/
def Target (per : Bool) (cl nl : List Nat) (G : List Cell) (r : Nat) (x : RankIn) (p : Interp) (bs : List BndRow) (k q : Nat) : Prop :=
  ∃ (b : BndRow) (i j l : Nat), bs[k]? = some b ∧ Sits per cl nl G r x b i j ∧ b.cell = l ∧ Is cl r x l i ∧ Owns cl r i ∧ Gives p.c2f l j (q : Int)

theorem target_slot {k q : Nat} (h : Target per cl nl G r x p bs k q) (hD : Distributed per cl nl G gc ranks) (hx : ranks[r]? = some x) {b : BndRow}
    (hb : bs[k]? = some b) {i j : Nat} (hs : Sits per cl nl G r x b i j) : ∃ l : Nat, b.cell = l ∧ Is cl r x l i ∧ Owns cl r i ∧ Gives p.c2f l j (q : Int) := by
  obtain ⟨b', i', j', l, hb', hs', e, hi, ho, hg⟩ := h
  rw [hb] at hb'; cases hb'
  obtain ⟨rfl, rfl⟩ := sits_unique hD hx hs hs'
  exact ⟨l, e, hi, ho, hg⟩

/-- the entry of a slot of an own cell: the element is on it if it is its slot -/
theorem entry_nodes (hW : World per cl nl G gc ranks ins) (hx : ranks[r]? = some x) (hp : ins[r]? = some p) {b : BndRow} {l i j j' : Nat} {a s b' : Slot}
    (hi : Is cl r x l i) (ha : IsSlot per G i j a) (hs : LocalSlot nl r x.nodeMap.ghostIndex a s) (hperm : b.nodes.Perm s.nodes)
    (hb' : IsSlot per G i j' b') {v : Int} (hv : 0 ≤ v) (hg : Gives p.c2f l j' v) :
    ∃ f, at64 p.faces v = .ok f ∧ (sortIdx b.nodes = sortIdx f.slot.nodes ↔ j' = j) := by
  have hD := hW.toDistributed
  have hR := hW.rank r x p hx hp
  obtain ⟨q, rfl⟩ : ∃ q : Nat, v = q := ⟨v.toNat, by omega⟩
  have hlt : q < p.faces.length := by
    rcases hR.entry l j' q hg with e | e | ⟨q', e, h⟩
    · have := unInit_neg; omega
    · omega
    · have : q = q' := by omega
      subst this; exact h
  obtain ⟨f, ef, hf⟩ := at64_eq (l := p.faces) (v := (q : Int)) (by omega) (by omega)
  rw [Int.toNat_natCast] at hf
  refine ⟨f, ef, ?_⟩
  obtain ⟨l0, i0, j0, a0, _, hi0, ha0, es, _, hg0, _⟩ := hR.face q f hf
  have hsf := hR.back l i j' l0 i0 j0 b' a0 q hi hb' hi0 ha0 hg hg0
  have hpn := hD.conforming _ _ _ _ _ _ hb' ha0 hsf.1 hsf.2.1
  have e1 : f.slot.nodes.Perm (b'.nodes.map (nameOf x.nodeMap)) := by
    rw [es]; exact (hpn.map _).symm
  have e2 : b.nodes.Perm (a.nodes.map (nameOf x.nodeMap)) := by
    rw [← localSlot_nodes hD hx hi ha hs]; exact hperm
  rw [sortIdx_eq_iff]
  constructor
  · intro h
    exact (slot_of_nodes hD ha hb' (perm_of_names hD hx hi ha hi hb' (e2.symm.trans (h.trans e1)))).symm
  · rintro rfl
    have := slot_unique ha hb'
    subst this
    exact e2.trans e1.symm

theorem rank_targets (hW : World per cl nl G gc ranks ins) (hB : Bounded per cl nl G ranks bnds Z) (hx : ranks[r]? = some x) (hp : ins[r]? = some p)
    (hbs : bnds[r]? = some bs) : Targets x.nOwn p.faces p.c2f bs (Target per cl nl G r x p bs) := by
  have hD := hW.toDistributed
  have hH := hD.holds r x hx
  have hR := hW.rank r x p hx hp
  refine ⟨?_, ?_, ?_, ?_, ?_⟩
  · intro k b hb
    obtain ⟨i, j, ho, hsit, hZ⟩ := hB.sits r x bs k b hx hbs hb
    have hsit' := hsit
    obtain ⟨l, a, s, el, hi, ha, hs, hperm⟩ := hsit
    have hl := is_lt hH hi
    obtain ⟨row, er, hrow⟩ := at64_eq (l := p.c2f) (v := b.cell) (by omega) (by rw [hR.size]; omega)
    have hrow : p.c2f[l]? = some row := by rw [el, Int.toNat_natCast] at hrow; exact hrow
    refine ⟨row, er, ?_⟩
    have hslot : ∀ {j' : Nat} {v : Int}, row[j']? = some v → ∃ b', IsSlot per G i j' b' := by
      intro j' v hv
      have h1 := hR.width l _ row (List.getElem?_eq_getElem hl) hrow
      obtain ⟨C, hC, _, _⟩ := ha
      have h2 := (hH.cells l i _ C (List.getElem?_eq_getElem hl) hC hi).type
      have := (List.getElem?_eq_some_iff.1 hv).1
      exact ⟨_, C, hC, by rw [← h2]; omega, rfl⟩
    have hmiss : ∀ {j' : Nat} {v : Int}, row[j']? = some v → j' ≠ j → Miss p.faces b v := by
      intro j' v hv hne
      by_cases h0 : v < 0
      · exact Or.inl h0
      · obtain ⟨b', hb'⟩ := hslot hv
        obtain ⟨f, ef, hf⟩ := entry_nodes hW hx hp hi ha hs hperm hb' (by omega) ⟨row, hrow, hv⟩
        exact Or.inr ⟨by omega, f, ef, fun h => hne (hf.1 h)⟩
    rcases hR.own l i j a hi ha ho with ⟨q, hq, hg⟩ | ⟨hg, l', i', j', ρ, b', hi', hb', hsf, hρ, hlt⟩
    · refine Or.inl ⟨j, q, ⟨b, i, j, l, hb, hsit', el, hi, ho, hg⟩, hq, ?_, ?_, fun j' v hv hne => hmiss hv hne⟩
      · obtain ⟨row', h1, h2⟩ := hg
        rw [hrow] at h1; cases h1; exact h2
      · obtain ⟨f, ef, hf⟩ := entry_nodes hW hx hp hi ha hs hperm ha (v := (q : Int)) (by omega) hg
        exact ⟨by omega, f, ef, hf.2 rfl⟩
    · refine Or.inr ⟨?_, ?_, ?_⟩
      · intro v hv
        obtain ⟨j2, hj2⟩ := List.mem_iff_getElem?.1 hv
        by_cases e : j2 = j
        · subst e
          have := gives_unique ⟨row, hrow, hj2⟩ hg
          exact Or.inl (by omega)
        · exact hmiss hj2 e
      · intro q hT
        obtain ⟨l2, e2, _, _, hg2⟩ := target_slot hT hD hx hb hsit'
        have : l2 = l := by omega
        subst this
        have := gives_unique hg hg2
        omega
      · refine (hB.twin i j i' j' a b' _ ha hb' hsf ?_ hZ).1
        intro e
        simp only [Prod.mk.injEq] at e
        have : i' = i := e.1.symm
        subst this
        have := owns_unique ho hρ
        omega
  · rintro k q q' h ⟨b, i, j, l, hb, hs, e, hi, ho, hg⟩
    obtain ⟨l', e', _, _, hg'⟩ := target_slot h hD hx hb hs
    have : l = l' := by omega
    subst this
    have := gives_unique hg hg'
    omega
  · rintro k k' q b ⟨b1, i, j, l, hb1, hs, e, hi, ho, hg⟩ ⟨b2, i', j', l', hb2, hs', e', hi', ho', hg'⟩ hne hb
    rw [hb] at hb1; cases hb1
    obtain ⟨i1, j1, _, hs1, hZ⟩ := hB.sits r x bs k b hx hbs hb
    obtain ⟨rfl, rfl⟩ := sits_unique hD hx hs hs1
    obtain ⟨_, a, _, _, _, ha, _⟩ := hs
    obtain ⟨_, a', _, _, _, ha', _⟩ := id hs'
    have hsf := hR.back l i j l' i' j' a a' q hi ha hi' ha' hg hg'
    refine (hB.twin i j i' j' a a' _ ha ha' hsf ?_ hZ).1
    intro e
    simp only [Prod.mk.injEq] at e
    obtain ⟨rfl, rfl⟩ := e
    exact hne (hB.once r x bs k k' b b2 i j hx hbs hb hb2 hs1 hs')
  · intro k b hb
    obtain ⟨i, j, _, _, hZ⟩ := hB.sits r x bs k b hx hbs hb
    exact hB.zone i j _ hZ
  · intro k b hb
    obtain ⟨i, j, ho, ⟨l, a, s, el, hi, _⟩, _⟩ := hB.sits r x bs k b hx hbs hb
    have := (is_own hH hi).2 ho
    omega

/-- the first cell of a face comes before the second -/
theorem rank_order (hD : Distributed per cl nl G gc ranks) (hx : ranks[r]? = some x) {srt : Sorter} (hs : Sorts srt)
    (e : buildFaces per srt x.nNodes x.cellMap gc r ranks.length x.nOwn x.cells = .ok p) {f : Face} (hf : f ∈ p.faces) :
    f.second = unInit ∨ f.first ≤ f.second := by
  obtain ⟨st, rows, em, hM⟩ := rank_match hD hx hs
  rw [buildFaces, em, Res.ok_bind] at e
  obtain ⟨c, _, e⟩ := (Res.bind_ok_iff _ _ _).1 e
  obtain ⟨c2f, _, e⟩ := (Res.bind_ok_iff _ _ _).1 e
  have e := Res.ok.inj e
  rw [← e] at hf
  simp only [keptFaces, List.mem_map, List.mem_filter] at hf
  obtain ⟨⟨g, w⟩, ⟨hg, _⟩, rfl⟩ := hf
  obtain ⟨k, hk⟩ := List.mem_iff_getElem?.1 (List.of_mem_zip hg).1
  obtain ⟨l, i, j, a, hS⟩ := shape hD hx hs hM hk
  rcases hS.second with ⟨h, _⟩ | ⟨l', i', j', b, h, hle, _⟩
  · exact Or.inl h
  · refine Or.inr ?_
    rw [hS.first, h]; omega

/-- the own face `q` of a rank after the loop: it has what is on the side of its first cell -/
theorem own_info (hW : World per cl nl G gc ranks ins) (hB : Bounded per cl nl G ranks bnds Z) (hx : ranks[r]? = some x) (hp : ins[r]? = some p)
    (hbs : bnds[r]? = some bs) (hord : ∀ f ∈ p.faces, f.second = unInit ∨ f.first ≤ f.second) {z : ZSt}
    (hz : ZInv p.faces bs (Target per cl nl G r x p bs) bs.length z) {q l i j : Nat} {f : Face} {a : Slot} (hf : p.faces[q]? = some f)
    (hl : f.first = l) (hi : Is cl r x l i) (ha : IsSlot per G i j a) (ho : Owns cl r i) (hg : Gives p.c2f l j (q : Int))
    (ht : f.slot.type = a.type) :
    z.info[q]? = some ((Z i j).getD ⟨a.type, 0⟩) ∧ ((Z i j = none ∧ z.face2bnd[q]? = some none) ∨
      ∃ (k : Nat) (b : BndRow), z.face2bnd[q]? = some (some k) ∧ bs[k]? = some b ∧ Sits per cl nl G r x b i j) := by
  have hD := hW.toDistributed
  have hH := hD.holds r x hx
  have hR := hW.rank r x p hx hp
  have hql : q < z.face2bnd.length := by rw [hz.lenF]; exact (List.getElem?_eq_some_iff.1 hf).1
  -- the element on the slot, if there is one, is on the face
  have hheld : ∀ {w : Info}, Z i j = some w → ∃ (k : Nat) (b : BndRow), bs[k]? = some b ∧ Sits per cl nl G r x b i j ∧ b.cell = l ∧
      Target per cl nl G r x p bs k q := by
    intro w hw
    obtain ⟨k, b, hb, hs⟩ := hB.held r x bs i j a w hx hbs ho ha hw
    obtain ⟨l', a', s', e', hi', ha', _⟩ := id hs
    have := is_unique hH hi hi'
    subst this
    exact ⟨k, b, hb, hs, e', b, i, j, l, hb, hs, e', hi, ho, hg⟩
  cases hc : z.face2bnd[q] with
  | none =>
    have hq : z.face2bnd[q]? = some none := by rw [List.getElem?_eq_getElem hql, hc]
    obtain ⟨h1, h2⟩ := hz.free q f hf hq
    have hZ : Z i j = none := by
      cases hZ : Z i j with
      | none => rfl
      | some w =>
        obtain ⟨k, b, hb, _, _, hT⟩ := hheld hZ
        exact absurd hT (h1 k (List.getElem?_eq_some_iff.1 hb).1)
    refine ⟨by rw [h2, hZ, ht]; rfl, Or.inl ⟨hZ, hq⟩⟩
  | some k =>
    have hq : z.face2bnd[q]? = some (some k) := by rw [List.getElem?_eq_getElem hql, hc]
    obtain ⟨_, hT, b, hb, h3, _, h5⟩ := hz.taken q k hq
    obtain ⟨i2, j2, _, hs2, hZ2⟩ := hB.sits r x bs k b hx hbs hb
    obtain ⟨l2, e2, hi2, ho2, hg2⟩ := target_slot hT hD hx hb hs2
    obtain ⟨_, a2, _, _, _, ha2, _⟩ := id hs2
    have hsf := hR.back _ _ _ _ _ _ _ _ q hi2 ha2 hi ha hg2 hg
    have hsame : (i2, j2) = (i, j) := by
      by_contra hne
      obtain ⟨_, w, hw⟩ := hB.twin i2 j2 i j a2 a _ ha2 ha hsf hne hZ2
      obtain ⟨k', b', hb', _, e', hT'⟩ := hheld hw
      have hle := h5 k' b' (List.getElem?_eq_some_iff.1 hb').1 hT' hb'
      have hlne : l2 ≠ l := by
        rintro rfl
        have := is_inj hH hi hi2
        subst this
        exact hne (by rw [slots_apart hD ha2 ha hsf])
      rcases hR.sides q f l2 j2 hf hg2 with e | e
      · omega
      · have hu := unInit_neg
        rcases hord f (List.mem_of_getElem? hf) with h | h <;> omega
    simp only [Prod.mk.injEq] at hsame
    obtain ⟨rfl, rfl⟩ := hsame
    exact ⟨by rw [h3, hZ2]; rfl, Or.inr ⟨k, b, hq, hb, hs2⟩⟩

/-- an element that is not periodic is on a face, and the face has it -/
theorem own_inverse (hG : Targets x.nOwn p.faces p.c2f bs (Target per cl nl G r x p bs)) {z : ZSt}
    (hz : ZInv p.faces bs (Target per cl nl G r x p bs) bs.length z) {k : Nat} {b : BndRow} (hb : bs[k]? = some b)
    (hn : isPeriodic b.info.zone = false) : ∃ q : Nat, z.bnd2face[k]? = some (q : Int) ∧ z.face2bnd[q]? = some (some k) := by
  obtain ⟨row, _, ⟨j, q, hT, hq, _⟩ | ⟨_, _, h⟩⟩ := hG.one k b hb
  · have hql : q < z.face2bnd.length := by rw [hz.lenF]; exact hq
    cases hc : z.face2bnd[q] with
    | none =>
      exact absurd hT ((hz.free q _ (List.getElem?_eq_getElem hq) (by rw [List.getElem?_eq_getElem hql, hc])).1 k (List.getElem?_eq_some_iff.1 hb).1)
    | some k' =>
      have hs : z.face2bnd[q]? = some (some k') := by rw [List.getElem?_eq_getElem hql, hc]
      obtain ⟨_, hT', _, _, _, h4, _⟩ := hz.taken q k' hs
      by_cases e : k = k'
      · subst e; exact ⟨q, h4, hs⟩
      · have := hG.dup k k' q b hT hT' e hb
        rw [hn] at this; cases this
  · rw [hn] at h; cases h

theorem target_lt (hG : Targets x.nOwn p.faces p.c2f bs (Target per cl nl G r x p bs)) {k q : Nat} (h : Target per cl nl G r x p bs k q) :
    q < p.faces.length := by
  obtain ⟨b, _, _, _, hb, _⟩ := id h
  obtain ⟨row, _, ⟨j, q', hT, hq, _⟩ | ⟨_, hno, _⟩⟩ := hG.one k b hb
  · rw [hG.fn _ _ _ h hT]; exact hq
  · exact absurd h (hno q)

/-- the number of an own face -/
theorem number_own (hW : World per cl nl G gc ranks ins) (hx : ranks[r]? = some x) (hp : ins[r]? = some p) {l i j q : Nat} {a : Slot}
    (hi : Is cl r x l i) (ha : IsSlot per G i j a) (ho : Owns cl r i) (hg : Gives p.c2f l j (q : Int)) (hq : q < p.faces.length) :
    number per cl G ranks ins i j = before (lensOf ins) r + q ∧ Owns (lensOf ins) r (number per cl G ranks ins i j) := by
  have h : Num per cl G ranks ins (before (lensOf ins) r + q) i j a r x p q l i j a :=
    ⟨ha, hx, hp, rfl, hq, hi, ho, ha, hg, sf_self hW.toDistributed ha⟩
  have e := number_eq hW ⟨_, _, _, _, _, _, _, _, _, h⟩
  exact ⟨e, by rw [e]; exact h.owns⟩

end world

end DNDSR.Faces
