import Verif.Proof.ElevRun
import Verif.Props.Elements

/-!
# Cells and boundary elements of the elevated mesh
-/

namespace DNDSR.Elev

open DNDSR.IMap DNDSR.MeshAdj DNDSR.Ghost
open DNDSR.Faces hiding rename St search
open DNDSR.Reorder hiding rename
open DNDSR.Elem hiding V3
open DNDSR.Bits (Mark)
open DNDSR.Per (V3 Periodicity)

variable {per : Bool} {P : Periodicity} {ps : List Piece} {X : Int → V3} {D : List Rk}

/-- the cells of the new mesh, rank by rank -/
structure CellsOf (per : Bool) (ps : List Piece) (D : List Rk) (R : List (List Int)) (cells : List (List Cell)) : Prop where
  len : cells.length = D.length
  rank : ∀ (r : Nat) (d : Rk) (cl : List Cell), D[r]? = some d → cells[r]? = some cl → cl.length = d.p.cells.length ∧
    ∀ (l : Nat) (C : Cell), d.p.cells[l]? = some C → cl[l]? = some (elevCell per (renum ps D) (number ps R) (before (cellLens ps) r + l) C)

theorem cells_stage (hE : Elevatable per P ps X) (h : All per P ps X D) {rows : List (List (List Int))} (hr : RowsOf D rows)
    (hN : Named per P ps X D rows.flatten) {gnO1 gn : GOM} (hg1 : Built (nodeLens ps) gnO1) (hg : Built (lens2 D) gn)
    {held : List (List (List Int))} {maps : List Map} {coords : List (List V3)} (hl : held.length = D.length) (hlm : maps.length = D.length)
    (hlc : coords.length = D.length) (hH : ∀ r d x, D[r]? = some d → held[r]? = some x → HeldRows ps rows.flatten r d x)
    (hS : ∀ (r : Nat) (x : List (List Int)) (m : Map) (c : List V3), held[r]? = some x → maps[r]? = some m → coords[r]? = some c → Sees D x m c) :
    ∃ cells, forRanks (fun _ (y : (RankO1 × List (List Choice)) × List (List Int) × Map × List V3) =>
      forRanks (fun i c => newCell per gnO1 gn y.2.2.1 y.2.2.2 y.2.1 y.1.1 i c) 0 y.1.2) 0
        (((D.map (·.y)).zip (D.map (·.c))).zip (held.zip (maps.zip coords))) = .ok cells ∧ CellsOf per ps D rows.flatten cells := by
  have hz : (D.map (·.y)).zip (D.map (·.c)) = D.map (fun d => (d.y, d.c)) := List.zip_map' ..
  rw [hz]
  obtain ⟨cells, e1, e2, e3⟩ := N2C.forRanks_all (fun _ (y : (RankO1 × List (List Choice)) × List (List Int) × Map × List V3) =>
      forRanks (fun i c => newCell per gnO1 gn y.2.2.1 y.2.2.2 y.2.1 y.1.1 i c) 0 y.1.2)
    (fun r _ cl => ∀ d, D[r]? = some d → cl.length = d.p.cells.length ∧
      ∀ (l : Nat) (C : Cell), d.p.cells[l]? = some C →
        cl[l]? = some (elevCell per (renum ps D) (number ps rows.flatten) (before (cellLens ps) r + l) C))
    ((D.map (fun d => (d.y, d.c))).zip (held.zip (maps.zip coords))) (by
      intro r y hy
      obtain ⟨⟨y1, y2⟩, x, m, c⟩ := y
      obtain ⟨h1, h2⟩ := List.getElem?_zip_eq_some.1 hy
      obtain ⟨h3, h4⟩ := List.getElem?_zip_eq_some.1 h2
      obtain ⟨h5, h6⟩ := List.getElem?_zip_eq_some.1 h4
      obtain ⟨d, hd, hdy⟩ := at_map h1
      have e1 : d.y = y1 := congrArg Prod.fst hdy
      have e2 : d.c = y2 := congrArg Prod.snd hdy
      subst e1 e2
      have hok := h.ok r d hd
      obtain ⟨cl, c1, c2, c3⟩ := N2C.forRanks_all (fun i cs => newCell per gnO1 gn m c x d.y i cs)
        (fun l _ C' => ∀ C, d.p.cells[l]? = some C → C' = elevCell per (renum ps D) (number ps rows.flatten) (before (cellLens ps) r + l) C) d.c (by
          intro l cs hcs
          obtain ⟨C, hC⟩ := at_some (l := d.p.cells) (r := l) (by rw [← hok.found.len]; exact some_lt hcs)
          refine ⟨_, newCell_spec hE h hr hN hg1 hg hd (hH r d x hd h3) (hS r x m c h3 h5 h6) hC hcs, ?_⟩
          intro C' hC'
          rw [hC] at hC'; cases hC'; rfl)
      refine ⟨cl, c1, fun d' hd' => ?_⟩
      rw [hd] at hd'; cases hd'
      refine ⟨by rw [c2, hok.found.len], fun l C hC => ?_⟩
      obtain ⟨C', hC'⟩ := at_some (l := cl) (r := l) (by rw [c2, hok.found.len]; exact some_lt hC)
      obtain ⟨cs, hcs⟩ := at_some (l := d.c) (r := l) (by rw [hok.found.len]; exact some_lt hC)
      rw [hC', c3 l cs C' hcs hC' C hC])
  have hlz : ((D.map (fun d => (d.y, d.c))).zip (held.zip (maps.zip coords))).length = D.length := by
    rw [List.length_zip, List.length_zip, List.length_zip, List.length_map]; omega
  refine ⟨cells, e1, by omega, ?_⟩
  intro r d cl hd hcl
  obtain ⟨y, hy⟩ := at_some (l := (D.map (fun d => (d.y, d.c))).zip (held.zip (maps.zip coords))) (r := r) (by rw [hlz]; exact some_lt hd)
  exact e3 r y cl hy hcl d hd

theorem naming_of (hE : Elevatable per P ps X) (h : All per P ps X D) {R : List (List Int)} (hN : Named per P ps X D R) {cells : List (List Cell)}
    (hc : CellsOf per ps D R cells) {ps' : List Piece} (h1 : nodeLens ps' = lens2 D) (h2 : ps'.map (·.cells) = cells) :
    Naming per ps ps' (renum ps D) (number ps R) := by
  have hlen : ps'.length = D.length := by rw [← hc.len, ← h2, List.length_map]
  have hcl : cellLens ps' = cellLens ps := by
    refine List.ext_getElem? fun r => ?_
    rw [cellLens, cellLens, List.getElem?_map, List.getElem?_map]
    by_cases hr : r < D.length
    · have hd := List.getElem?_eq_getElem hr
      have hp' := List.getElem?_eq_getElem (l := ps') (i := r) (by omega)
      rw [hp', h.piece hd, Option.map_some, Option.map_some,
        (hc.rank r _ _ hd (by rw [← h2, List.getElem?_map, hp']; rfl)).1]
    · rw [List.getElem?_eq_none (by omega), List.getElem?_eq_none (by have := h.length; omega)]
  obtain ⟨f1, f2⟩ := naming_facts hE h hN
  refine ⟨hcl, ?_, ?_, ?_, f1, fun i k i' k' C C' a b => number_iff hE hN a b, f2⟩
  · intro i C hC
    obtain ⟨r, d, l, hd, hC', e, _⟩ := h.cell hC
    obtain ⟨p', hp'⟩ := at_some (l := ps') (r := r) (by rw [hlen]; exact some_lt hd)
    obtain ⟨g1, g2⟩ := hc.rank r d p'.cells hd (by rw [← h2, List.getElem?_map, hp']; rfl)
    rw [e, ← hcl, whole_at hp' (by rw [g1]; exact some_lt hC'), g2 l C hC', hcl]
  · intro q hq
    obtain ⟨r, d, _, _, _, _, ho, _⟩ := old_spec h hq
    rw [h1]
    exact owns_range ho
  · intro i k C hi
    obtain ⟨_, _, _, _, _, _, _, _, _, _, _, ho, _⟩ := number_spec hE hN hi
    rw [h1]
    exact owns_range ho

/-! ### boundary elements -/

theorem Elevatable.bnd_node (hE : Elevatable per P ps X) {r : Nat} {p : Piece} (hp : ps[r]? = some p) {b : Bnd} (hb : b ∈ p.bnds) :
    b.nodes ≠ [] ∧ ∀ q ∈ b.nodes, Global (nodeLens ps) q := hE.mesh.bnds p (List.mem_of_getElem? hp) b hb

/-- row `n` of `bnd2cell` of a rank -/
theorem bnd_row {r : Nat} {p : Piece} {s : St} {a : Adj} {x : Held} (hE : Elevatable per P ps X) (h : Has per ps r p s a x) {n : Nat} {b : Bnd}
    (hb : p.bnds[n]? = some b) : ∃ z v w, a.b2c[n]? = some z ∧ BndOk per ps b z ∧ s.prim.bnd2cell[n]? = some [v, w] ∧
      Owns (cellLens ps) r z.1 ∧ v = z.1 - before (cellLens ps) r ∧ s.cellMap.apply (-1) v = .ok z.1 ∧
      (w = Faces.unInit ∧ z.2 = Faces.unInit ∨ w ≠ Faces.unInit ∧ s.cellMap.apply (-1) w = .ok z.2) := by
  have hF := h.held.cellMap.faithful
  obtain ⟨z, hz⟩ := at_some (l := a.b2c) (r := n) (by rw [h.adj.bnds]; exact some_lt hb)
  have hok := h.adj.bnd n b z hb hz
  obtain ⟨ho, -⟩ := hE.bnds r p b z h.piece (List.mem_of_getElem? hb) hok
  obtain ⟨hne, -⟩ := hE.bnd_node h.piece (List.mem_of_getElem? hb)
  obtain ⟨g1, g2⟩ := bndOk_global hne hok
  obtain ⟨l1, l2⟩ := h.prim.b2c
  have hz' : (a.b2c.map (fun z => [z.1, z.2]))[n]? = some [z.1, z.2] := by rw [List.getElem?_map, hz]; rfl
  obtain ⟨row, hrow⟩ := at_some (l := s.prim.bnd2cell) (r := n) (by rw [← l1]; exact some_lt hz')
  obtain ⟨l3, l4⟩ := l2 n _ _ hz' hrow
  obtain ⟨v, w, rfl⟩ : ∃ v w, row = [v, w] := List.length_eq_two.1 l3.symm
  have hu : ∀ q : Int, 0 ≤ q → q ≠ Faces.unInit := by intro q hq e; rw [e] at hq; simp [Faces.unInit] at hq
  have n1 := (l4 0 z.1 v rfl rfl).resolve_left (fun hc => hu _ g1.1 hc.1)
  obtain ⟨v0, v1, v2, v3⟩ := keeps_name h g1 (Or.inl ho)
  have e1 : v = v0 := by rw [← nameOf_eq hF g1.1 n1.2, ← h.cmap, v1]
  have e2 : v = z.1 - before (cellLens ps) r := by
    rw [← nameOf_eq hF g1.1 n1.2]
    exact nameOf_eq hF g1.1 (Or.inl ⟨ho, rfl⟩)
  refine ⟨z, v, w, hz, hok, hrow, ho, e2, by rw [e1]; exact v3, ?_⟩
  rcases l4 1 z.2 w rfl rfl with ⟨m1, m2⟩ | ⟨m1, m2⟩
  · exact Or.inl ⟨m2, m1⟩
  · right
    have g3 := g2.resolve_left m1
    have hcov : ∀ c, (c = z.1 ∨ c = z.2) → Covers ps c b := by
      unfold BndOk at hok
      by_cases hzn : per = true ∧ isPeriodicId b.zone = true
      · rw [if_pos hzn] at hok; exact fun c hc => (hok.2.1 c).2 hc
      · rw [if_neg hzn] at hok; exact absurd hok.1 m1
    obtain ⟨q, hq⟩ := List.exists_mem_of_ne_nil _ hne
    have ht : Touches ps r z.2 := ⟨z.1, q, ho, hcov z.1 (Or.inl rfl) q hq, hcov z.2 (Or.inr rfl) q hq⟩
    obtain ⟨w0, w1, w2, w3⟩ := keeps_name h g3 (touches_kept h.held ht)
    have e3 : w = w0 := by rw [← nameOf_eq hF g3.1 m2, ← h.cmap, w1]
    refine ⟨by rw [e3]; exact hu _ (by omega), by rw [e3]; exact w3⟩

theorem b2c_stage {r : Nat} {p : Piece} {s : St} {a : Adj} {x : Held} (hE : Elevatable per P ps X) (h : Has per ps r p s a x) :
    forRanks (fun _ row => bndCells s.cellMap row) 0 s.prim.bnd2cell = .ok a.b2c := by
  have hlen : s.prim.bnd2cell.length = p.bnds.length := by
    have := h.prim.b2c.1
    rw [List.length_map, h.adj.bnds] at this
    exact this.symm
  rw [forRanks_ok]
  refine ⟨by rw [hlen, h.adj.bnds], ?_⟩
  intro n row hn
  obtain ⟨b, hb⟩ := at_some (l := p.bnds) (r := n) (by rw [← hlen]; exact some_lt hn)
  obtain ⟨z, v, w, h1, _, h3, _, _, h6, h7⟩ := bnd_row hE h hb
  rw [hn] at h3; cases h3
  refine ⟨z, h1, ?_⟩
  unfold bndCells
  rw [(idx_ok_iff [v, w] 0 v).2 rfl, Res.ok_bind, (idx_ok_iff [v, w] 1 w).2 rfl, Res.ok_bind, h6, Res.ok_bind]
  rcases h7 with ⟨e1, e2⟩ | ⟨e1, e2⟩
  · rw [if_neg (by simp [e1]), e1, ← e2]
  · rw [if_pos e1, e2, Res.ok_bind]

theorem c2c_stage {r : Nat} {p : Piece} {s : St} {a : Adj} {x : Held} (h : Has per ps r p s a x) :
    forRanks (fun _ row => forRanks (fun _ v => s.cellMap.apply (-1) v) 0 row) 0 (s.prim.cell2cell.take s.nCell) = .ok (x.c2c.take p.cells.length) := by
  have hl : s.prim.cell2cell.length = x.c2c.length := h.prim.c2c.1.symm
  rw [forRanks_ok]
  refine ⟨by rw [h.nCell, List.length_take, List.length_take, hl], ?_⟩
  intro n row hn
  have hlt : n < p.cells.length := by
    have := some_lt hn
    rw [List.length_take, h.nCell] at this
    omega
  rw [h.nCell, List.getElem?_take_of_lt hlt] at hn
  obtain ⟨C, hC⟩ := at_some hlt
  obtain ⟨gs, g1, g2, _, _, g5⟩ := own_names h hC
  rw [hn] at g2; cases g2
  refine ⟨gs, by rw [List.getElem?_take_of_lt hlt]; exact g1, ?_⟩
  rw [forRanks_ok]
  refine ⟨by simp, ?_⟩
  intro k v hv
  rw [List.getElem?_map] at hv
  obtain ⟨c, hc, rfl⟩ := Option.map_eq_some_iff.1 hv
  refine ⟨c, hc, ?_⟩
  obtain ⟨k1, k2⟩ := g5 c (List.mem_of_getElem? hc)
  obtain ⟨v, v1, _, v3⟩ := keeps_name h k2 k1
  rw [v1]; exact v3

/-- the neighbours of the cells of a rank in the order in which it has them -/
theorem own_adj {r : Nat} {p : Piece} {s : St} {a : Adj} {x : Held} (h : Has per ps r p s a x) : AdjMeans per ps r p ⟨x.c2c.take p.cells.length, a.b2c⟩ := by
  refine ⟨h.own_len, ?_, ?_, h.adj.bnds, h.adj.bnd⟩
  · intro row hrow
    obtain ⟨k, hk⟩ := List.mem_iff_getElem?.1 hrow
    obtain ⟨row', e1, e2, _⟩ := h.own_c2c (k := k) (by rw [← h.own_len]; exact some_lt hk)
    rw [hk] at e1; cases e1; exact e2
  · intro k row hk
    obtain ⟨row', e1, _, e3⟩ := h.own_c2c (k := k) (by rw [← h.own_len]; exact some_lt hk)
    have hk : (x.c2c.take p.cells.length)[k]? = some row := hk
    rw [hk] at e1; cases e1; exact e3

theorem newBnd_spec (hE : Elevatable per P ps X) (h : All per P ps X D) {R : List (List Int)} {ps' : List Piece}
    (hN : Naming per ps ps' (renum ps D) (number ps R)) {cells : List (List Cell)}
    (hc : CellsOf per ps D R cells) {gnO1 gn : GOM} (hg1 : Built (nodeLens ps) gnO1) (hg : Built (lens2 D) gn) {r : Nat} {d : Rk} (hd : D[r]? = some d)
    {cl : List Cell} (hcl : cells[r]? = some cl) {n : Nat} {b : Bnd} (hb : d.p.bnds[n]? = some b) (zone : Int) :
    ∃ (x : Int × Int) (C : Cell) (f : Nat), BndOk per ps b x ∧ IsCell ps x.1 C ∧ f < (numFaces C.type).toNat ∧ (corners (slot per C f)).Perm b.nodes ∧
      newBnd gnO1 gn d.y cl n zone = .ok (faceType (elevatedType C.type) f,
        ⟨zone, (slot per (elevCell per (renum ps D) (number ps R) x.1.toNat C) f).nodes⟩) := by
  have hok := h.ok r d hd
  have hps := h.piece hd
  have hmb := List.mem_of_getElem? hb
  obtain ⟨z, v, w, h1, h2, h3, h4, h5, h6, h7⟩ := bnd_row hE hok.has hb
  obtain ⟨_, C, f, hC, hf, hp⟩ := hE.bnds r d.p b z hps hmb h2
  refine ⟨z, C, f, h2, hC, hf, hp, ?_⟩
  have hmem := List.mem_of_getElem? hC.2
  have h0 := h4.2.1
  obtain ⟨r', d', l, hd', hC', e, ho⟩ := h.cell hC.2
  have hrr : r' = r := by
    rw [Int.toNat_of_nonneg hC.1] at ho
    exact owns_unique ho h4
  subst hrr
  rw [hd] at hd'; cases hd'
  have hv : v = l := by
    have := hC.1
    omega
  obtain ⟨_, c2⟩ := hc.rank r' d cl hd hcl
  have hcell := c2 l C hC'
  rw [← e] at hcell
  -- the nodes of the boundary element
  obtain ⟨l1, l2⟩ := hok.has.prim.b2n
  have hbn : (d.p.bnds.map (·.nodes))[n]? = some b.nodes := by rw [List.getElem?_map, hb]; rfl
  obtain ⟨b2n, hb2n⟩ := at_some (l := d.y.st.prim.bnd2node) (r := n) (by rw [← l1]; exact some_lt hbn)
  obtain ⟨l3, l4⟩ := l2 n _ _ hbn hb2n
  have hold : forRanks (fun _ v => oldNode gnO1 gn d.y.st.nodeMap v) 0 b2n = .ok (b.nodes.map (renum ps D)) := by
    refine oldNodes_spec h hg1 hg l3.symm ?_
    intro k q u hq hu
    have hgq := (hE.bnd_node hps hmb).2 q (List.mem_of_getElem? hq)
    obtain ⟨u0, u1⟩ := l4 k q u hq hu
    rw [hok.has.nmap]
    exact ⟨hgq, hok.has.held.nodeMap.faithful.apply_of_name u1 hgq.1 u0⟩
  -- the face
  have hf2 := faces2 C.type (hE.order C hmem)
  obtain ⟨e1, e2⟩ := elev_ok hE hN hC.2
  obtain ⟨c', hc', _, hon⟩ := only_of (cells := [elevCell per (renum ps D) (number ps R) z.1.toNat C]) (l := 0) (j := f) rfl e1 e2
    (by show f < (numFaces (elevatedType C.type)).toNat; rw [hf2]; exact hf) (V := b.nodes.map (renum ps D)) (by
      rw [corners2 hE hmem hf, ← corners_all hE hmem hf]
      exact (hp.map _).symm)
  cases hc'
  have hseek := seekFace_spec (c := elevCell per (renum ps D) (number ps R) z.1.toNat C) (b := sortIdx (b.nodes.map (renum ps D))) (j := f)
    (ns := fun j => (slot per (elevCell per (renum ps D) (number ps R) z.1.toNat C) j).nodes) (by
      intro j hj
      obtain ⟨ns, n1, n2⟩ := hon j hj
      have := face_extract (elevCell per (renum ps D) (number ps R) z.1.toNat C).type e1.known j (List.mem_range.2 hj) (elevCell per (renum ps D) (number ps R) z.1.toNat C).nodes e1.nodes
      rw [n1] at this
      have e : ns = (slot per (elevCell per (renum ps D) (number ps R) z.1.toNat C) j).nodes := Res.ok.inj this
      subst e
      exact ⟨n1, n2⟩) (numFaces (elevatedType C.type)).toNat 0 0 (.unknown, []) (by rw [Nat.zero_add]; rfl)
      (by show f < (numFaces (elevatedType C.type)).toNat; rw [hf2]; exact hf)
  rw [if_pos (Nat.zero_le _)] at hseek
  unfold newBnd
  rw [(idx_ok_iff _ _ _).2 h3, Res.ok_bind, (idx_ok_iff [v, w] 0 v).2 rfl, Res.ok_bind, (idx_ok_iff _ _ _).2 hb2n, Res.ok_bind, hold, Res.ok_bind,
    if_neg (by omega), hv, Int.toNat_natCast, hcell]
  show (seekFace _ _ 0 0 (.unknown, []) (numFaces (elevatedType C.type)).toNat >>= _) = _
  rw [hseek, Res.ok_bind, Res.assert_true _ rfl, Res.ok_bind]
  rfl

end DNDSR.Elev
