import Verif.Proof.ElevBnd
import Verif.Props.GhostPrimary

/-!
# Elevating a mesh from order one to order two (C87)
-/

namespace DNDSR.Elev

open DNDSR.IMap DNDSR.MeshAdj DNDSR.Ghost
open DNDSR.Faces hiding rename St search
open DNDSR.Reorder hiding rename
open DNDSR.Elem hiding V3
open DNDSR.Bits (Mark)
open DNDSR.Per (V3 Periodicity)

theorem map_of {β γ : Type} {D : List Rk} {f : Rk → β} {l : List γ} {g : γ → β} (hl : l.length = D.length)
    (h : ∀ (r : Nat) (d : Rk) (y : γ), D[r]? = some d → l[r]? = some y → g y = f d) : l.map g = D.map f := by
  refine List.ext_getElem? fun r => ?_
  rw [List.getElem?_map, List.getElem?_map]
  by_cases hr : r < D.length
  · have hd := List.getElem?_eq_getElem hr
    have hy := List.getElem?_eq_getElem (l := l) (i := r) (by omega)
    rw [hd, hy, Option.map_some, Option.map_some, h r _ _ hd hy]
  · rw [List.getElem?_eq_none (by omega), List.getElem?_eq_none (by omega)]; rfl

/-- what a rank has in the end -/
def RankEnds (per : Bool) (ps : List Piece) (D : List Rk) (R : List (List Int)) (cells : List (List Cell)) (r : Nat) (d : Rk) (o : RankO2) : Prop :=
  ∃ cl, cells[r]? = some cl ∧ o.cells = cl ∧ o.coords = d.own ∧ o.c2c = d.x.c2c.take d.p.cells.length ∧
    o.b2c = d.a.b2c ∧ o.bnds.length = d.p.bnds.length ∧ ∀ (n : Nat) (b : Bnd), d.p.bnds[n]? = some b →
      ∃ (x : Int × Int) (C : Cell) (f : Nat), BndOk per ps b x ∧ IsCell ps x.1 C ∧ f < (numFaces C.type).toNat ∧ (corners (slot per C f)).Perm b.nodes ∧
        o.bnds[n]? = some (faceType (elevatedType C.type) f,
          ⟨b.zone, (slot per (elevCell per (renum ps D) (number ps R) x.1.toNat C) f).nodes⟩)

set_option maxHeartbeats 1600000 in
/-- **C87**.  On every mesh of order one that can be elevated, whatever its element types and however it is distributed,
`BuildO2FromO1Elevation` returns, and the ranks then have the mesh of order two: the same cells with the same nodes, and for every edge and
quadrilateral face and every hexahedron one new node, the same for all cells around it on whatever ranks, in the middle of its nodes.
Boundary elements become the faces they were, and neighbours and boundary cells are those of the new mesh, which is again a mesh the later
stages accept (C74, C75). -/
theorem elevation (per : Bool) (P : Periodicity) (ps : List Piece) (X : Int → V3) (xs : List RankO1) (hE : Elevatable per P ps X)
    (hx : RanksHave per ps X xs) (hs : Small (ps.map (fun p => p.nNodes + 19 * p.cells.length))) :
    ∃ outs ν N, elevate per P xs = .ok outs ∧ Elevated per P ps X outs ν N ∧ MeshOk per (pieces outs) ∧ Small (nodeLens (pieces outs)) := by
  obtain ⟨cs, D, h1, hA, rfl, rfl⟩ := all_exists hE hx hs
  have hDl := hA.length
  -- the assertions
  have horder : ∀ ts ∈ (D.map (·.y)).map (fun x => x.st.info.map (·.1)), ∀ t ∈ ts, order t = 1 := by
    intro ts hts t ht
    obtain ⟨y, hy, rfl⟩ := List.mem_map.1 hts
    obtain ⟨d, hd, rfl⟩ := List.mem_map.1 hy
    obtain ⟨r, hr⟩ := List.mem_iff_getElem?.1 hd
    have hok := hA.ok r d hr
    have hi : d.y.st.info = d.x.cells.map (fun C => (C.type, C.pbi)) := hok.has.info
    rw [hi, List.map_map] at ht
    obtain ⟨C, hC, rfl⟩ := List.mem_map.1 ht
    obtain ⟨l, hl⟩ := List.mem_iff_getElem?.1 hC
    obtain ⟨c, C', g1, g2, _⟩ := held_name hok.has.held (some_lt hl)
    rw [hl] at g2; cases g2
    exact hE.order C (List.mem_of_getElem? g1.2)
  have a1 : (isO1 ((D.map (·.y)).map (fun x => x.st.info.map (·.1)))).all (· = true) = true := by
    rw [List.all_eq_true]
    intro b hb
    exact decide_eq_true (((order_queries_partial _).2.2.1.2 horder) b hb)
  have a2 : (D.map (·.y)).all (fun x => decide (x.st.prim.state = .pointToLocal)) = true := by
    rw [List.all_eq_true]
    intro y hy
    obtain ⟨d, hd, rfl⟩ := List.mem_map.1 hy
    obtain ⟨r, hr⟩ := List.mem_iff_getElem?.1 hd
    exact decide_eq_true (hA.ok r d hr).has.state
  -- the numbers of the ranks
  have l1 : (D.map (·.y)).map (fun x => x.st.nCell) = cellLens ps := by
    rw [List.map_map, cellLens, ← hA.parts, List.map_map]
    refine List.map_congr_left fun d hd => ?_
    obtain ⟨r, hr⟩ := List.mem_iff_getElem?.1 hd
    exact (hA.ok r d hr).has.nCell
  have l2 : (D.map (·.y)).map (fun x => x.st.nodeMap.mainSize) = nodeLens ps := by
    rw [List.map_map, nodeLens, ← hA.parts, List.map_map]
    refine List.map_congr_left fun d hd => ?_
    obtain ⟨r, hr⟩ := List.mem_iff_getElem?.1 hd
    exact (hA.ok r d hr).main
  obtain ⟨gc, hgc⟩ := built_exists (cellLens ps)
  obtain ⟨g1, hg1⟩ := built_exists (nodeLens ps)
  obtain ⟨gn, hgn⟩ := built_exists (lens2 D)
  have hown : ((D.map (·.y)).zip (D.map (·.c))).map (fun y => ownCoords y.1 y.2) = D.map Rk.own := by
    rw [show (D.map (·.y)).zip (D.map (·.c)) = D.map (fun d => (d.y, d.c)) from List.zip_map' .., List.map_map]; rfl
  obtain ⟨rows, r1, r2⟩ := rows_stage hA hgn
  have hN := named hA r2
  obtain ⟨held, s1, s2, s3⟩ := held_stage hA r2 hgc
  obtain ⟨want, maps, coords, t1, t2, t3, t4, t5, t6⟩ := coords_stage hA hs hgn hN s2 s3
  obtain ⟨cells, c1, c2⟩ := cells_stage hE hA r2 hN hg1 hgn s2 t4 t5 s3 t6
  -- the mesh without its boundary
  have hmid : Naming per ps ((D.zip cells).map (fun y => (⟨y.2, [], y.1.own.length⟩ : Piece))) (renum ps D) (number ps rows.flatten) := by
    refine naming_of hE hA hN c2 ?_ ?_
    · rw [nodeLens, List.map_map, lens2, List.map_map]
      have : (D.zip cells).map Prod.fst = D := List.map_fst_zip (by rw [c2.len])
      conv_rhs => rw [← this]
      rw [List.map_map]; rfl
    · rw [List.map_map]
      exact List.map_snd_zip (by rw [c2.len])
  -- the last loop
  have hlz : ((D.map (·.y)).zip ((D.map Rk.own).zip cells)).length = D.length := by
    rw [List.length_zip, List.length_zip, List.length_map, List.length_map, c2.len]; omega
  obtain ⟨outs, o1, o2, o3⟩ := N2C.forRanks_all (fun _ (y : RankO1 × List V3 × List Cell) => do
      let c2c ← forRanks (fun _ row => forRanks (fun _ v => y.1.st.cellMap.apply (-1) v) 0 row) 0 (y.1.st.prim.cell2cell.take y.1.st.nCell)
      let b2c ← forRanks (fun _ row => bndCells y.1.st.cellMap row) 0 y.1.st.prim.bnd2cell
      let bnds ← forRanks (fun i z => newBnd g1 gn y.1 y.2.2 i z) 0 y.1.zones
      .ok (⟨y.2.2, y.2.1, c2c, b2c, bnds⟩ : RankO2))
    (fun r _ o => ∀ d, D[r]? = some d → RankEnds per ps D rows.flatten cells r d o)
    ((D.map (·.y)).zip ((D.map Rk.own).zip cells)) (by
      intro r y hy
      obtain ⟨y1, y2, cl⟩ := y
      obtain ⟨k1, k2⟩ := List.getElem?_zip_eq_some.1 hy
      obtain ⟨k3, k4⟩ := List.getElem?_zip_eq_some.1 k2
      obtain ⟨d, hd, e1⟩ := at_map k1
      obtain ⟨d', hd', e2⟩ := at_map k3
      rw [hd] at hd'; cases hd'
      have e1 : d.y = y1 := e1
      subst e1 e2
      have hok := hA.ok r d hd
      have hz : d.y.zones = d.p.bnds.map (·.zone) := hok.zones
      obtain ⟨bs, b1, b2, b3⟩ := N2C.forRanks_all (fun i z => newBnd g1 gn d.y cl i z)
        (fun n z o => ∀ b, d.p.bnds[n]? = some b → z = b.zone → ∃ (x : Int × Int) (C : Cell) (f : Nat), BndOk per ps b x ∧ IsCell ps x.1 C ∧
          f < (numFaces C.type).toNat ∧ (corners (slot per C f)).Perm b.nodes ∧
          o = (faceType (elevatedType C.type) f, (⟨b.zone, (slot per (elevCell per (renum ps D) (number ps rows.flatten) x.1.toNat C) f).nodes⟩ : Bnd)))
        d.y.zones (by
          intro n z hn
          rw [hz, List.getElem?_map] at hn
          obtain ⟨b, hb, rfl⟩ := Option.map_eq_some_iff.1 hn
          obtain ⟨x, C, f, w1, w2, w3, w4, w5⟩ := newBnd_spec hE hA hmid c2 hg1 hgn hd k4 hb b.zone
          refine ⟨_, w5, fun b' hb' _ => ?_⟩
          rw [hb] at hb'; cases hb'
          exact ⟨x, C, f, w1, w2, w3, w4, rfl⟩)
      refine ⟨⟨cl, d.own, d.x.c2c.take d.p.cells.length, d.a.b2c, bs⟩, ?_, ?_⟩
      · simp only [c2c_stage hok.has, b2c_stage hE hok.has, b1, Res.ok_bind]
      · intro d' hd'
        rw [hd] at hd'; cases hd'
        refine ⟨cl, k4, rfl, rfl, rfl, rfl, by show bs.length = _; rw [b2, hz, List.length_map], ?_⟩
        intro n b hb
        have hzn : d.y.zones[n]? = some b.zone := by rw [hz, List.getElem?_map, hb]; rfl
        obtain ⟨o, ho⟩ := at_some (l := bs) (r := n) (by rw [b2]; exact some_lt hzn)
        obtain ⟨x, C, f, w1, w2, w3, w4, w5⟩ := b3 n b.zone o hzn ho b hb rfl
        exact ⟨x, C, f, w1, w2, w3, w4, by show bs[n]? = _; rw [ho, w5]⟩)
  have hol : outs.length = D.length := by omega
  have hout : ∀ (r : Nat) (d : Rk) (o : RankO2), D[r]? = some d → outs[r]? = some o → RankEnds per ps D rows.flatten cells r d o := fun r d o hd ho => by
    obtain ⟨y, hy⟩ := at_some (l := (D.map (·.y)).zip ((D.map Rk.own).zip cells)) (r := r) (by rw [hlz]; exact some_lt hd)
    exact o3 r y o hy ho d hd
  have hrun : elevate per P (D.map (·.y)) = .ok outs := by
    unfold elevate
    rw [Res.assert_true _ a1, Res.ok_bind, Res.assert_true _ a2, Res.ok_bind, l1, show setMPIAlignBcast ((cellLens ps).map Int.ofNat) = .ok gc from hgc,
      Res.ok_bind, l2, show setMPIAlignBcast ((nodeLens ps).map Int.ofNat) = .ok g1 from hg1, Res.ok_bind, h1, Res.ok_bind]
    simp only [hown]
    rw [show setMPIAlignBcast (((D.map Rk.own).map List.length).map Int.ofNat) = .ok gn from hgn, Res.ok_bind, r1, Res.ok_bind, s1, Res.ok_bind, t1,
      Res.ok_bind, t2, Res.ok_bind, t3, Res.ok_bind, c1, Res.ok_bind]
    exact o1
  have hnl : nodeLens (pieces outs) = lens2 D := by
    rw [nodeLens, pieces, List.map_map, lens2, List.map_map]
    refine map_of hol ?_
    intro r d o hd ho
    obtain ⟨cl, _, _, e, _⟩ := hout r d o hd ho
    show o.coords.length = d.own.length
    rw [e]
  have hflat : (outs.map (·.coords)) = D.map Rk.own := by
    refine map_of hol ?_
    intro r d o hd ho
    obtain ⟨cl, _, _, e, _⟩ := hout r d o hd ho
    exact e
  have hcells : (pieces outs).map (·.cells) = cells := by
    refine List.ext_getElem? fun r => ?_
    rw [pieces, List.map_map, List.getElem?_map]
    by_cases hr : r < D.length
    · have hd := List.getElem?_eq_getElem hr
      have ho := List.getElem?_eq_getElem (l := outs) (i := r) (by omega)
      obtain ⟨cl, e1, e2, _⟩ := hout r _ _ hd ho
      rw [ho, e1, ← e2]; rfl
    · rw [List.getElem?_eq_none (by omega), List.getElem?_eq_none (by rw [c2.len]; omega)]; rfl
  have hName : Naming per ps (pieces outs) (renum ps D) (number ps rows.flatten) := naming_of hE hA hN c2 hnl hcells
  have hpl : (pieces outs).length = ps.length := by rw [pieces, List.length_map, hol, hDl]
  have hB : BndsOf per ps (pieces outs) (renum ps D) (number ps rows.flatten) := by
    intro r p p' hp hp'
    obtain ⟨d, hd, rfl⟩ := hA.rank hp
    rw [pieces, List.getElem?_map] at hp'
    obtain ⟨o, ho, rfl⟩ := Option.map_eq_some_iff.1 hp'
    obtain ⟨cl, _, _, _, _, _, e1, e2⟩ := hout r d o hd ho
    refine ⟨by show (o.bnds.map (·.2)).length = _; rw [List.length_map, e1], ?_⟩
    intro n b hb
    obtain ⟨x, C, f, w1, w2, w3, w4, w5⟩ := e2 n b hb
    exact ⟨x, C, f, w1, w2, w3, w4, by show (o.bnds.map (·.2))[n]? = _; rw [List.getElem?_map, w5]; rfl⟩
  have hM := mesh2 hE hName hpl hB
  refine ⟨outs, renum ps D, number ps rows.flatten, hrun, ?_, hM, by rw [hnl]; exact small_new hA hs⟩
  refine ⟨by omega, hName.lens, hName.cell, ?_, hName.iff, hName.fresh, ?_, ?_, ?_, ?_, ?_, ?_⟩
  · intro r q hq
    obtain ⟨r', d, hd, ho, e, _, ho2, hat⟩ := old_spec hA (owns_range hq)
    have := owns_unique ho hq
    subst this
    rw [hnl]
    refine ⟨ho2, by rw [e]; omega, (owns_range ho2).1, by rw [hflat]; exact hat⟩
  · intro q hq
    rw [hnl] at hq
    obtain ⟨r, ho⟩ := owns_exists (lens := lens2 D) hq.1 hq.2
    obtain ⟨d, hd⟩ := at_some (l := D) (r := r) (by simpa [lens2] using ho.1)
    by_cases hlt : q < (before (lens2 D) r : Int) + d.p.nNodes
    · left
      have h0 := ho.2.1
      have hnode := hA.nodeLens hd
      obtain ⟨n1, n2⟩ := List.getElem?_eq_some_iff.1 hnode
      have ho' : Owns (nodeLens ps) r ((before (nodeLens ps) r : Int) + (q - before (lens2 D) r)) := ⟨n1, by omega, by rw [n2]; omega⟩
      refine ⟨_, owns_range ho', ?_⟩
      rw [renum_eq ho']
      omega
    · right
      obtain ⟨i, k, C, row, f1, f2, f3⟩ := hN.all r d q hd ho (by omega)
      exact ⟨i, k, C, f1.1, number_eq hE hN f1.1 f1 (List.Perm.refl _) f2 f3⟩
  · intro i k C hi
    obtain ⟨i', k', C', row, r, d, f1, f2, f3, f4, f5, f6, f7, _⟩ := number_spec hE hN hi
    refine ⟨r, i', k', C', by rw [hnl]; exact f6, f7, f1.1, f2, ?_⟩
    intro j k'' E hj hp
    refine f1.2 j E hj.1 ?_
    intro q hq
    exact (hE.span_mem hj).2 q ((hp.trans f2.symm).mem_iff.2 hq)
  · intro i k C hi
    obtain ⟨i', k', C', row, r, d, f1, f2, f3, f4, f5, f6, f7, f8, f9⟩ := number_spec hE hN hi
    exact ⟨(owns_range f6).1, by rw [hflat]; exact f9⟩
  · intro r p o hp ho
    obtain ⟨d, hd, rfl⟩ := hA.rank hp
    obtain ⟨cl, _, _, _, _, _, e1, _⟩ := hout r d o hd ho
    exact e1
  · intro r p o n b hp ho hb
    obtain ⟨d, hd, rfl⟩ := hA.rank hp
    obtain ⟨cl, _, _, _, _, _, _, e2⟩ := hout r d o hd ho
    exact e2 n b hb
  · intro r p o hp ho
    obtain ⟨d, hd⟩ := at_some (l := D) (r := r) (by rw [← hol]; exact some_lt ho)
    obtain ⟨cl, _, _, _, e1, e2, _, _⟩ := hout r d o hd ho
    exact adj2 hE hName hpl hB (hA.piece hd) hp (own_adj (hA.ok r d hd).has) e1 e2

open Matrix in
theorem shift_unshift {P : Periodicity} {d : Fin 4} (h : Per.Rigid (P.rotation d)) (x : V3) : shift P d (unshift P d x) = x := by
  unfold shift unshift
  rw [add_sub_cancel_right, Matrix.mulVec_mulVec, h.2, Matrix.one_mulVec, sub_add_cancel, sub_add_cancel]

theorem forward_backward {P : Periodicity} (h : ∀ d, Per.Rigid (P.rotation d)) (b : Mark) (x : V3) : forward P b (backward P b x) = x := by
  have key : ∀ (c : Bool) (d : Fin 4) (y : V3), stepIf c (shift P d) (stepIf c (unshift P d) y) = y := by
    intro c d y
    cases c
    · rfl
    · exact shift_unshift (h d) y
  unfold forward backward
  rw [key, key, key]

/-- **C87**, the shape of cells.  In the new mesh a cell sees its old nodes where it saw them, and each new one in the middle of the nodes it
lies between, also across periodic boundaries. -/
theorem elevated_cell_sees (per : Bool) (P : Periodicity) (ps : List Piece) (X : Int → V3) (hE : Elevatable per P ps X) (hP : ∀ d, Per.Rigid (P.rotation d))
    (outs : List RankO2) (ν : Int → Int) (N : Nat → Nat → Int) (hO : Elevated per P ps X outs ν N) (X' : Int → V3)
    (hX : ∀ q y, IsAt outs q y → X' q = y) (i : Nat) (C : Cell) (hC : (whole ps)[i]? = some C) :
    ∃ C', (whole (pieces outs))[i]? = some C' ∧ C'.type = elevatedType C.type ∧
      (∀ a < (numNodes C.type).toNat, seen per P X' C' a = seen per P X C a) ∧
      ∀ k < (numElev C.type).toNat, seen per P X' C' ((numNodes C.type).toNat + k) = middle per P X C k := by
  have hm := List.mem_of_getElem? hC
  refine ⟨_, hO.cell i C hC, rfl, ?_, ?_⟩
  · intro a ha
    have hg := hE.global hm (List.mem_of_getElem? (hE.at_node hm ha))
    obtain ⟨r, ho⟩ := owns_exists (lens := nodeLens ps) hg.1 hg.2
    have hx := hX _ _ (hO.old r _ ho).2.2
    unfold seen
    cases hp : per with
    | false =>
      subst hp
      rw [elev_old hE hm ha]
      simpa using hx
    | true =>
      subst hp
      rw [elev_old hE hm ha, elev_pbi_old hE rfl hm ha]
      simp only [if_true, Option.getD_some]
      rw [hx]
  · intro k hk
    have hx := hX _ _ (hO.point i k C ⟨hC, hk⟩)
    unfold seen
    cases hp : per with
    | false =>
      subst hp
      rw [elev_new hE hm hk]
      simpa [nodePoint] using hx
    | true =>
      subst hp
      rw [elev_new hE hm hk, elev_pbi_new hE rfl hm hk]
      simp only [if_true, Option.getD_some]
      rw [hx, nodePoint, if_pos rfl, forward_backward hP]

/-- **C87**, what follows.  The mesh of order two goes through the later stages: `node2cell`, neighbours, ghost layer, local numbers and
faces are built for it (C74, C75). -/
theorem elevated_built (per : Bool) (P : Periodicity) (ps : List Piece) (X : Int → V3) (xs : List RankO1) (hE : Elevatable per P ps X)
    (hx : RanksHave per ps X xs) (hs : Small (ps.map (fun p => p.nNodes + 19 * p.cells.length)))
    (h : N2C.Hash) (hf : N2C.Fair h) (u : Bool) (srt : Sorter) (hsrt : Sorts srt) (order : List (Nat × Nat)) (ho : Tran.AllPairs ps.length order)
    (hb : 27 * (cellLens ps).sum < Arr.int32Max) :
    ∃ outs ν N out, ∃ held : List Held, ∃ F, elevate per P xs = .ok outs ∧ Elevated per P ps X outs ν N ∧
      buildMesh per h u srt order (pieces outs) = .ok out ∧
      (∀ (r : Nat) (p : Piece) (x : Held) (a : Adj) (y : Primary) (o : RankOut), (pieces outs)[r]? = some p → held[r]? = some x → out[r]? = some (a, y, o) →
        AdjOk per (pieces outs) r p a ∧ HeldOk (pieces outs) r x ∧ PrimaryOk (pieces outs) r p a x y) ∧
      Numbered per (cellLens (pieces outs)) (nodeLens (pieces outs)) (whole (pieces outs))
        ((held.zip (out.map (·.2.1))).map (fun x => toRankIn x.1 x.2)) (out.map (·.2.2)) F := by
  obtain ⟨outs, ν, N, e1, e2, e3, hsn⟩ := elevation per P ps X xs hE hx hs
  have hlen : (pieces outs).length = ps.length := by rw [pieces, List.length_map, e2.ranks]
  have hnodes : ∀ t : ElemType, t ≠ .unknown → (numNodes t).toNat ≤ 27 := by intro t; cases t <;> decide
  have hcell : ∀ C ∈ whole (pieces outs), C.nodes.length ≤ 27 := by
    intro C hC
    rw [(e3.valid C hC).1.nodes]
    exact hnodes _ (e3.valid C hC).1.known
  have hent : N2C.entries ((pieces outs).map (fun p => p.cells.map (·.nodes))) < Arr.int32Max := by
    refine lt_of_le_of_lt ?_ hb
    have key : ∀ qs : List Piece, (∀ C ∈ whole qs, C.nodes.length ≤ 27) →
        N2C.entries (qs.map (fun p => p.cells.map (·.nodes))) ≤ 27 * (cellLens qs).sum := by
      intro qs
      induction qs with
      | nil => intro _; simp [N2C.entries, cellLens]
      | cons p qs ih =>
        intro hq
        have h1 := ih (fun C hC => hq C (by rw [whole, List.map_cons, List.flatten_cons]; exact List.mem_append_right _ hC))
        have h2 : ∀ l : List Cell, (∀ C ∈ l, C.nodes.length ≤ 27) → ((l.map (·.nodes)).map List.length).sum ≤ 27 * l.length := by
          intro l
          induction l with
          | nil => simp
          | cons C l ih' =>
            intro hl
            have a1 := hl C (List.mem_cons_self ..)
            have a2 := ih' (fun C hC => hl C (List.mem_cons_of_mem _ hC))
            simp only [List.map_cons, List.sum_cons, List.length_cons] at a2 ⊢
            omega
        have h3 := h2 p.cells (fun C hC => hq C (by rw [whole, List.map_cons, List.flatten_cons]; exact List.mem_append_left _ hC))
        simp only [N2C.entries, cellLens, List.map_cons, List.sum_cons] at h1 ⊢
        omega
    have := key (pieces outs) hcell
    rwa [e2.lens] at this
  obtain ⟨out, held, F, g1, _, _, g2, g3⟩ := mesh_built per h hf u srt hsrt (pieces outs) order (by rw [hlen]; exact ho) e3 hent hsn
    (by rw [e2.lens]; exact small_cells hs)
  exact ⟨outs, ν, N, out, held, F, e1, e2, g1, g2, g3⟩

end DNDSR.Elev
