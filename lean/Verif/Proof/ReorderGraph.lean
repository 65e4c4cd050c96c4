import Verif.Proof.Reorder
import Verif.Props.RCM

/-!
# The graph of the cells of a rank
-/

namespace DNDSR.Reorder

open DNDSR.IMap DNDSR.MeshAdj DNDSR.Faces DNDSR.Ghost DNDSR.Elem

theorem inter_eq : ∀ (a b : List Int), a.Pairwise (· < ·) → b.Pairwise (· < ·) → inter a b = a.filter (fun q => decide (q ∈ b))
  | [], b, _, _ => by simp [inter]
  | x :: xs, [], _, _ => by simp [inter]
  | x :: xs, y :: ys, ha, hb => by
      obtain ⟨a1, a2⟩ := List.pairwise_cons.1 ha
      obtain ⟨b1, b2⟩ := List.pairwise_cons.1 hb
      unfold inter
      by_cases h1 : x < y
      · rw [if_pos h1, inter_eq xs (y :: ys) a2 hb, List.filter_cons_of_neg]
        simp only [List.mem_cons, decide_eq_true_eq, not_or]
        exact ⟨by omega, fun h => by have := b1 x h; omega⟩
      · by_cases h2 : y < x
        · rw [if_neg h1, if_pos h2, inter_eq (x :: xs) ys ha b2]
          refine List.filter_congr fun q hq => ?_
          have : q ≠ y := by
            rcases List.mem_cons.1 hq with rfl | h
            · omega
            · have := a1 q h; omega
          simp [this]
        · have e : x = y := by omega
          subst e
          rw [if_neg h1, if_neg h2, inter_eq xs ys a2 b2, List.filter_cons_of_pos (by simp)]
          congr 1
          refine List.filter_congr fun q hq => ?_
          have : q ≠ x := by have := a1 q hq; omega
          simp [this]
  termination_by a b => a.length + b.length

theorem sorted_strict {l : List Int} (h : l.Nodup) : (sortIdx l).Pairwise (· < ·) := by
  have h1 := sortIdx_sorted l
  have h2 : (sortIdx l).Nodup := (sortIdx_perm l).nodup_iff.2 h
  refine List.Pairwise.imp₂ ?_ h1 h2
  intro a b h1 h2; omega

theorem inter_length {a b : List Int} (ha : a.Nodup) (hb : b.Nodup) :
    (inter (sortIdx a) (sortIdx b)).length = (a.filter (fun q => decide (q ∈ b))).length := by
  rw [inter_eq _ _ (sorted_strict ha) (sorted_strict hb)]
  have : (fun q => decide (q ∈ sortIdx b)) = fun q => decide (q ∈ b) := by
    funext q; simp only [(sortIdx_perm b).mem_iff]
  rw [this]
  exact ((sortIdx_perm a).filter _).length_eq

theorem filter_map_inj {f : Int → Int} {a b : List Int} (hf : ∀ x ∈ a, ∀ y ∈ b, f x = f y → x = y) :
    ((a.map f).filter (fun q => decide (q ∈ b.map f))).length = (a.filter (fun q => decide (q ∈ b))).length := by
  rw [List.filter_map, List.length_map]
  congr 1
  refine List.filter_congr fun x hx => ?_
  simp only [Function.comp_apply, List.mem_map, decide_eq_decide]
  constructor
  · rintro ⟨y, hy, e⟩; exact hf x hx y hy e.symm ▸ hy
  · intro h; exact ⟨x, h, rfl⟩

theorem shared_comm {C D : Cell} (hC : C.nodes.Nodup) (hD : D.nodes.Nodup) : shared C D = shared D C := by
  have hc : (cornersOf C).Nodup := hC.sublist (List.take_sublist _ _)
  have hd : (cornersOf D).Nodup := hD.sublist (List.take_sublist _ _)
  refine List.Perm.length_eq ((List.perm_ext_iff_of_nodup (hc.filter _) (hd.filter _)).2 fun q => ?_)
  simp only [List.mem_filter, decide_eq_true_eq]
  exact and_comm

theorem numVertices_le (t : ElemType) : (numVertices t).toNat ≤ (numNodes t).toNat := by cases t <;> decide +kernel

theorem named_owner {lens : List Nat} {r : Nat} {gh : List Int} {q v : Int} (h : Named lens r gh q v) (hq : 0 ≤ q) : LocalName lens r gh q v := by
  rcases h with ⟨e, _⟩ | ⟨_, h⟩
  · rw [e] at hq; exact absurd hq (by decide)
  · exact h

section
variable {per : Bool} {ps : List Piece} {r : Nat} {p : Piece} {a : Adj} {x : Held} {s : St}

theorem mainSize_eq (hp : ps[r]? = some p) {m : Map} (hm : Faithful (cellLens ps) r m) : m.mainSize = p.cells.length := by
  have := hm.size
  rw [cellLens, List.getElem?_map, hp] at this
  simpa using this.symm

/-- the cells a rank has of its own -/
theorem own_cell (hp : ps[r]? = some p) (hx : HeldMeans ps r x) {i : Nat} {C : Cell} (hC : p.cells[i]? = some C) : x.cells[i]? = some C := by
  have hF := hx.cellMap.faithful
  have hi := (List.getElem?_eq_some_iff.1 hC).1
  have hl : i < x.cells.length := by rw [hx.size, mainSize_eq hp hF]; omega
  rw [List.getElem?_eq_getElem hl]
  congr 1
  exact hx.cells i _ _ C (List.getElem?_eq_getElem hl) (isCell_own hp hC) (Or.inl ⟨owns_of_index hp hi, by omega⟩)

theorem own_cells (hp : ps[r]? = some p) (hx : HeldMeans ps r x) : x.cells.take p.cells.length = p.cells := by
  refine List.ext_getElem? fun i => ?_
  by_cases hi : i < p.cells.length
  · rw [List.getElem?_take_of_lt hi, own_cell hp hx (List.getElem?_eq_getElem hi), List.getElem?_eq_getElem hi]
  · rw [List.getElem?_eq_none (by rw [List.length_take]; omega), List.getElem?_eq_none (by omega)]

/-- the nodes of a cell of the rank -/
theorem own_nodes (hM : MeshOk per ps) (hp : ps[r]? = some p) (hx : HeldMeans ps r x) (hy : PrimaryOk ps r p a x s.prim) {i : Nat} {C : Cell}
    (hC : p.cells[i]? = some C) : s.prim.cell2node[i]? = some (C.nodes.map (nameOf x.nodeMap)) ∧
      ∀ q ∈ C.nodes, numberOf x.nodeMap (nameOf x.nodeMap q) = q := by
  have hv := (hM.valid C (mem_whole (List.mem_of_getElem? hp) (List.mem_of_getElem? hC))).1
  have hF := hx.nodeMap.faithful
  have hc := own_cell hp hx hC
  have hc' : (x.cells.map (·.nodes))[i]? = some C.nodes := by rw [List.getElem?_map, hc]; rfl
  have hl : i < s.prim.cell2node.length := by rw [← hy.c2n.1]; exact (List.getElem?_eq_some_iff.1 hc').1
  obtain ⟨h1, h2⟩ := hy.c2n.2 i _ _ hc' (List.getElem?_eq_getElem hl)
  have key : ∀ (k : Nat) (q : Int), C.nodes[k]? = some q → ∃ v, s.prim.cell2node[i][k]? = some v ∧ 0 ≤ v ∧ nameOf x.nodeMap q = v ∧ numberOf x.nodeMap v = q := by
    intro k q hq
    have hk : k < s.prim.cell2node[i].length := by rw [← h1]; exact (List.getElem?_eq_some_iff.1 hq).1
    obtain ⟨h3, h4⟩ := h2 k q _ hq (List.getElem?_eq_getElem hk)
    have hq0 := (hv.range q (List.mem_of_getElem? hq)).1
    exact ⟨_, List.getElem?_eq_getElem hk, h3, nameOf_eq hF hq0 h4, numberOf_eq hF hq0 h3 h4⟩
  constructor
  · rw [List.getElem?_eq_getElem hl]
    congr 1
    refine List.ext_getElem? fun k => ?_
    rw [List.getElem?_map]
    by_cases hk : k < C.nodes.length
    · obtain ⟨v, e1, _, e2, _⟩ := key k _ (List.getElem?_eq_getElem hk)
      rw [e1, List.getElem?_eq_getElem hk, Option.map_some, e2]
    · rw [List.getElem?_eq_none (by omega), List.getElem?_eq_none (by omega)]; rfl
  · intro q hq
    obtain ⟨k, hk⟩ := List.mem_iff_getElem?.1 hq
    obtain ⟨v, _, _, e2, e3⟩ := key k q hk
    rw [e2, e3]

theorem corners_run (hM : MeshOk per ps) (hp : ps[r]? = some p) (hx : HeldMeans ps r x) (hy : PrimaryOk ps r p a x s.prim)
    (hinfo : s.info = x.cells.map (fun C => (C.type, C.pbi))) {i : Nat} {C : Cell} (hC : p.cells[i]? = some C) :
    cellCorners s i = .ok (sortIdx ((cornersOf C).map (nameOf x.nodeMap))) := by
  have hv := (hM.valid C (mem_whole (List.mem_of_getElem? hp) (List.mem_of_getElem? hC))).1
  have e1 : s.info[i]? = some (C.type, C.pbi) := by rw [hinfo, List.getElem?_map, own_cell hp hx hC]; rfl
  have e2 := (own_nodes hM hp hx hy hC).1
  have f1 : at64 s.info (i : Int) = .ok (C.type, C.pbi) := by
    rw [at64, if_pos (by omega)]; exact (idx_ok_iff _ _ _).2 (by simpa using e1)
  have f2 : at64 s.prim.cell2node (i : Int) = .ok (C.nodes.map (nameOf x.nodeMap)) := by
    rw [at64, if_pos (by omega)]; exact (idx_ok_iff _ _ _).2 (by simpa using e2)
  rw [cellCorners, f1, Res.ok_bind, f2, Res.ok_bind, sortedVerts]
  have := numVertices_le C.type
  rw [if_pos (by rw [List.length_map, hv.nodes]; exact this), cornersOf, List.map_take]

theorem shared_run (hM : MeshOk per ps) (hp : ps[r]? = some p) (hx : HeldMeans ps r x) (hy : PrimaryOk ps r p a x s.prim) {i j : Nat} {C D : Cell}
    (hC : p.cells[i]? = some C) (hD : p.cells[j]? = some D) :
    (inter (sortIdx ((cornersOf C).map (nameOf x.nodeMap))) (sortIdx ((cornersOf D).map (nameOf x.nodeMap)))).length = shared C D := by
  have inj : ∀ {i j : Nat} {C D : Cell}, p.cells[i]? = some C → p.cells[j]? = some D → ∀ u ∈ cornersOf C, ∀ v ∈ cornersOf D,
      nameOf x.nodeMap u = nameOf x.nodeMap v → u = v := by
    intro i j C D hC hD u hu v hv e
    rw [← (own_nodes hM hp hx hy hC).2 u (List.mem_of_mem_take hu), ← (own_nodes hM hp hx hy hD).2 v (List.mem_of_mem_take hv), e]
  have nd : ∀ {i : Nat} {C : Cell}, p.cells[i]? = some C → ((cornersOf C).map (nameOf x.nodeMap)).Nodup := by
    intro i C hC
    have hn := (hM.valid C (mem_whole (List.mem_of_getElem? hp) (List.mem_of_getElem? hC))).2
    have hn' : (cornersOf C).Nodup := hn.sublist (List.take_sublist _ _)
    exact List.pairwise_map.2 (hn'.imp_of_mem fun ha hb hab e => hab (inj hC hC _ ha _ hb e))
  rw [inter_length (nd hC) (nd hD), filter_map_inj (inj hC hD)]
  rfl

/-- the neighbours of a cell of the rank, under their local names -/
theorem own_row (hp : ps[r]? = some p) (hx : HeldMeans ps r x) (hy : PrimaryOk ps r p a x s.prim) {i : Nat} {C : Cell}
    (hC : p.cells[i]? = some C) : ∃ row, s.prim.cell2cell[i]? = some row ∧ row.Nodup ∧ (∀ v ∈ row, 0 ≤ v) ∧
      ∀ (j : Nat) (D : Cell), p.cells[j]? = some D → ((j : Int) ∈ row ↔ i ≠ j ∧ ∃ q, q ∈ C.nodes ∧ q ∈ D.nodes) := by
  have hF := hx.cellMap.faithful
  have hi := (List.getElem?_eq_some_iff.1 hC).1
  have hoi := owns_of_index hp hi
  have hIC := isCell_own hp hC
  have hl : i < x.c2c.length := by rw [hx.c2cSize]; exact (List.getElem?_eq_some_iff.1 (own_cell hp hx hC)).1
  have hl' : i < s.prim.cell2cell.length := by rw [← hy.c2c.1]; exact hl
  have hni : LocalName (cellLens ps) r x.cellMap.ghostIndex ((before (cellLens ps) r : Int) + i) i := Or.inl ⟨hoi, by omega⟩
  obtain ⟨n1, n2⟩ := hx.c2c i _ _ (List.getElem?_eq_getElem hl) (by omega) hni
  obtain ⟨h1, h2⟩ := hy.c2c.2 i _ _ (List.getElem?_eq_getElem hl) (List.getElem?_eq_getElem hl')
  have hent : ∀ (k : Nat) (q v : Int), (x.c2c[i])[k]? = some q → (s.prim.cell2cell[i])[k]? = some v →
      0 ≤ q ∧ 0 ≤ v ∧ LocalName (cellLens ps) r x.cellMap.ghostIndex q v := by
    intro k q v hq hv
    obtain ⟨_, z, h3, h4⟩ := (n2 q).1 (List.mem_of_getElem? hq)
    have hg := hasNode_global h4
    have hnm := named_owner (h2 k q v hq hv) hg.1
    refine ⟨hg.1, ?_, hnm⟩
    have hk := touches_kept hx (c := q) ⟨_, z, hoi, h3, h4⟩
    rcases hnm with ⟨ho, e⟩ | ⟨_, k', _, n, _, e⟩ | ⟨ho, hn, _⟩
    · obtain ⟨_, hb, _⟩ := ho; omega
    · omega
    · exact (hk.elim ho hn).elim
  refine ⟨_, List.getElem?_eq_getElem hl', ?_, ?_, ?_⟩
  · rw [List.nodup_iff_getElem?_ne_getElem?]
    intro j k hjk hk e
    have hj : j < (s.prim.cell2cell[i]).length := by omega
    rw [List.getElem?_eq_getElem hj, List.getElem?_eq_getElem hk] at e
    have e := Option.some.inj e
    have hj' : j < (x.c2c[i]).length := by omega
    have hk' : k < (x.c2c[i]).length := by omega
    obtain ⟨a1, a2, a3⟩ := hent j _ _ (List.getElem?_eq_getElem hj') (List.getElem?_eq_getElem hj)
    obtain ⟨b1, b2, b3⟩ := hent k _ _ (List.getElem?_eq_getElem hk') (List.getElem?_eq_getElem hk)
    rw [e] at a3
    have := name_inj hF b2 a1 b1 a3 b3
    exact (List.nodup_iff_getElem?_ne_getElem?.1 n1) j k hjk hk' (by
      rw [List.getElem?_eq_getElem hj', List.getElem?_eq_getElem hk', this])
  · intro v hv
    obtain ⟨k, hk⟩ := List.mem_iff_getElem?.1 hv
    have hk' : k < (x.c2c[i]).length := by rw [h1]; exact (List.getElem?_eq_some_iff.1 hk).1
    exact (hent k _ v (List.getElem?_eq_getElem hk') hk).2.1
  · intro j D hD
    have hID := isCell_own hp hD
    have hoj := owns_of_index hp (List.getElem?_eq_some_iff.1 hD).1
    have hnj : LocalName (cellLens ps) r x.cellMap.ghostIndex ((before (cellLens ps) r : Int) + j) j := Or.inl ⟨hoj, by omega⟩
    have hmem : (j : Int) ∈ s.prim.cell2cell[i] ↔ (before (cellLens ps) r : Int) + j ∈ x.c2c[i] := by
      constructor
      · intro h
        obtain ⟨k, hk⟩ := List.mem_iff_getElem?.1 h
        have hk' : k < (x.c2c[i]).length := by rw [h1]; exact (List.getElem?_eq_some_iff.1 hk).1
        obtain ⟨b1, b2, b3⟩ := hent k _ _ (List.getElem?_eq_getElem hk') hk
        rw [← name_inj hF b2 b1 (by omega) b3 hnj]
        exact List.getElem_mem hk'
      · intro h
        obtain ⟨k, hk⟩ := List.mem_iff_getElem?.1 h
        have hk' : k < (s.prim.cell2cell[i]).length := by rw [← h1]; exact (List.getElem?_eq_some_iff.1 hk).1
        obtain ⟨b1, b2, b3⟩ := hent k _ _ hk (List.getElem?_eq_getElem hk')
        rw [← hF.name_unique b3 hnj]
        exact List.getElem_mem hk'
    rw [hmem, n2]
    constructor
    · rintro ⟨h3, q, ⟨C', hC', h4⟩, ⟨D', hD', h5⟩⟩
      rw [isCell_unique hC' hIC] at h4
      rw [isCell_unique hD' hID] at h5
      exact ⟨fun e => h3 (by rw [e]), q, h4, h5⟩
    · rintro ⟨h3, q, h4, h5⟩
      exact ⟨by omega, q, ⟨C, hIC, h4⟩, ⟨D, hID, h5⟩⟩

theorem faceRow_run (hM : MeshOk per ps) (hp : ps[r]? = some p) (hx : HeldMeans ps r x) (hy : PrimaryOk ps r p a x s.prim)
    (hinfo : s.info = x.cells.map (fun C => (C.type, C.pbi))) (hcm : s.cellMap = x.cellMap) (dim : Nat) {i : Nat} {C : Cell} (hC : p.cells[i]? = some C) :
    ∀ row : List Int, (∀ v ∈ row, 0 ≤ v) → ∃ out, faceRow dim s (sortIdx ((cornersOf C).map (nameOf x.nodeMap))) row = .ok out ∧ out.Sublist row ∧
      ∀ j, j ∈ out ↔ j ∈ row ∧ ∃ D, p.cells[j.toNat]? = some D ∧ dim ≤ shared C D
  | [], _ => ⟨[], rfl, List.Sublist.refl _, by simp⟩
  | j :: js, h => by
      obtain ⟨out, e, hs, hm⟩ := faceRow_run hM hp hx hy hinfo hcm dim hC js (fun v hv => h v (List.mem_cons_of_mem _ hv))
      have hj := h j (List.mem_cons_self ..)
      have hn : s.nCell = p.cells.length := by rw [St.nCell, hcm, mainSize_eq hp hx.cellMap.faithful]
      unfold faceRow
      by_cases hlt : j.toNat < p.cells.length
      · rw [if_neg (by rw [hn]; omega)]
        have hD := List.getElem?_eq_getElem hlt
        have hc := corners_run hM hp hx hy hinfo hD
        rw [show ((j.toNat : Nat) : Int) = j by omega] at hc
        rw [hc, Res.ok_bind, e, Res.ok_bind, shared_run hM hp hx hy hC hD]
        refine ⟨_, rfl, ?_, ?_⟩
        · split
          · exact hs.cons₂ _
          · exact hs.cons _
        · intro k
          by_cases hd : shared C p.cells[j.toNat] ≥ dim
          · rw [if_pos hd]
            simp only [List.mem_cons, hm]
            constructor
            · rintro (rfl | ⟨h1, h2⟩)
              · exact ⟨Or.inl rfl, _, hD, hd⟩
              · exact ⟨Or.inr h1, h2⟩
            · rintro ⟨rfl | h1, h2⟩
              · exact Or.inl rfl
              · exact Or.inr ⟨h1, h2⟩
          · rw [if_neg hd, hm]
            simp only [List.mem_cons]
            constructor
            · rintro ⟨h1, h2⟩; exact ⟨Or.inr h1, h2⟩
            · rintro ⟨rfl | h1, h2⟩
              · obtain ⟨D, h3, h4⟩ := h2
                rw [hD] at h3
                cases h3
                exact absurd h4 hd
              · exact ⟨h1, h2⟩
      · rw [if_pos (by rw [hn]; omega)]
        refine ⟨out, e, hs.cons _, fun k => ?_⟩
        rw [hm]
        simp only [List.mem_cons]
        constructor
        · rintro ⟨h1, h2⟩; exact ⟨Or.inr h1, h2⟩
        · rintro ⟨rfl | h1, h2⟩
          · obtain ⟨D, h3, _⟩ := h2
            exact absurd (List.getElem?_eq_some_iff.1 h3).1 hlt
          · exact ⟨h1, h2⟩

theorem shared_pos {C D : Cell} (h : 1 ≤ shared C D) : ∃ q, q ∈ C.nodes ∧ q ∈ D.nodes := by
  obtain ⟨q, hq⟩ := List.exists_mem_of_length_pos (l := (cornersOf C).filter (fun q => decide (q ∈ cornersOf D))) h
  obtain ⟨h1, h2⟩ := List.mem_filter.1 hq
  exact ⟨q, List.mem_of_mem_take h1, List.mem_of_mem_take (of_decide_eq_true h2)⟩

theorem faceGraph_run (hM : MeshOk per ps) (hp : ps[r]? = some p) (hx : HeldMeans ps r x) (hy : PrimaryOk ps r p a x s.prim)
    (hinfo : s.info = x.cells.map (fun C => (C.type, C.pbi))) (hcm : s.cellMap = x.cellMap) (hst : s.prim.state = .pointToLocal) {dim : Nat} (hd : 1 ≤ dim) :
    ∃ g, faceGraph dim s = .ok g ∧ FaceGraph dim p g ∧ RCM.Symmetric g := by
  have hn : s.nCell = p.cells.length := by rw [St.nCell, hcm, mainSize_eq hp hx.cellMap.faithful]
  obtain ⟨g, e, l, h⟩ := N2C.forRanks_all (fun i (_ : Unit) => do
      let ci ← cellCorners s i
      let row ← idx s.prim.cell2cell i
      faceRow dim s ci row)
    (fun i _ out => out.Nodup ∧ ∀ (j : Int) (C : Cell), p.cells[i]? = some C →
      (j ∈ out ↔ (i : Int) ≠ j ∧ 0 ≤ j ∧ ∃ D, p.cells[j.toNat]? = some D ∧ dim ≤ shared C D)) (List.replicate s.nCell ()) (by
      intro i u hu
      have hi : i < p.cells.length := by rw [← hn]; simpa using (List.getElem?_eq_some_iff.1 hu).1
      have hC := List.getElem?_eq_getElem hi
      obtain ⟨row, r1, r2, r3, r4⟩ := own_row hp hx hy hC
      obtain ⟨out, o1, o2, o3⟩ := faceRow_run hM hp hx hy hinfo hcm dim hC row r3
      refine ⟨out, ?_, r2.sublist o2, ?_⟩
      · rw [corners_run hM hp hx hy hinfo hC, Res.ok_bind, (idx_ok_iff _ _ _).2 r1, Res.ok_bind, o1]
      · intro j C' hC'
        rw [hC] at hC'
        cases hC'
        rw [o3]
        constructor
        · rintro ⟨h1, D, h2, h3⟩
          have h0 := r3 j h1
          have := (r4 j.toNat D h2).1 (by rw [show ((j.toNat : Nat) : Int) = j by omega]; exact h1)
          exact ⟨by omega, h0, D, h2, h3⟩
        · rintro ⟨h1, h0, D, h2, h3⟩
          have := (r4 j.toNat D h2).2 ⟨by omega, shared_pos (by omega)⟩
          rw [show ((j.toNat : Nat) : Int) = j by omega] at this
          exact ⟨this, D, h2, h3⟩)
  rw [List.length_replicate] at l
  have hrow : ∀ (i : Nat), i < p.cells.length → ∃ out, g[i]? = some out ∧ RCM.nbr g i = out ∧ out.Nodup ∧ ∀ (j : Int) (C : Cell), p.cells[i]? = some C →
      (j ∈ out ↔ (i : Int) ≠ j ∧ 0 ≤ j ∧ ∃ D, p.cells[j.toNat]? = some D ∧ dim ≤ shared C D) := by
    intro i hi
    have hi' : i < g.length := by omega
    refine ⟨g[i], List.getElem?_eq_getElem hi', ?_, h i () _ (by rw [List.getElem?_replicate, if_pos (by omega)]) (List.getElem?_eq_getElem hi')⟩
    rw [RCM.nbr, if_pos (by omega), Int.toNat_natCast, List.getD_eq_getElem _ _ hi']
  refine ⟨g, ?_, ⟨by omega, ?_⟩, ⟨?_, ?_⟩⟩
  · rw [faceGraph, Res.assert_true _ hst, Res.ok_bind, e]
  · intro i j C hC
    obtain ⟨out, _, e2, _, h4⟩ := hrow i (List.getElem?_eq_some_iff.1 hC).1
    rw [e2]
    exact h4 j C hC
  · intro i hi
    obtain ⟨k, rfl⟩ := Int.eq_ofNat_of_zero_le hi.1
    obtain ⟨out, _, e2, h3, _⟩ := hrow k (by have := hi.2; omega)
    rw [e2]
    exact h3.filter _
  · intro i hi j hj hij
    obtain ⟨k, rfl⟩ := Int.eq_ofNat_of_zero_le hi.1
    have hk : k < p.cells.length := by have := hi.2; omega
    obtain ⟨out, _, e2, h3, h4⟩ := hrow k hk
    rw [e2] at hj
    obtain ⟨h5, h6, D, h7, h8⟩ := (h4 j _ (List.getElem?_eq_getElem hk)).1 hj
    obtain ⟨l, rfl⟩ := Int.eq_ofNat_of_zero_le h6
    simp only [Int.toNat_natCast] at h7
    have hl := (List.getElem?_eq_some_iff.1 h7).1
    obtain ⟨out', _, e3, _, h9⟩ := hrow l hl
    refine ⟨⟨by omega, by omega⟩, ?_⟩
    rw [e3]
    refine (h9 k D h7).2 ⟨Ne.symm h5, by omega, _, by rw [Int.toNat_natCast]; exact List.getElem?_eq_getElem hk, ?_⟩
    have hmp := List.mem_of_getElem? hp
    rw [shared_comm (hM.valid D (mem_whole hmp (List.mem_of_getElem? h7))).2 (hM.valid _ (mem_whole hmp (List.getElem_mem hk))).2]
    exact h8

end

end DNDSR.Reorder
