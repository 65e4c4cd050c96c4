import Verif.Proof.ReorderRun
import Verif.Props.GhostPrimary

/-!
# Renumbering the cells of every rank (C85)
-/

namespace DNDSR.Reorder

open DNDSR.IMap DNDSR.MeshAdj DNDSR.Faces DNDSR.Ghost DNDSR.Elem
open DNDSR.N2C (Hash Fair entries node2Cell demoHash demoHash_fair)
open DNDSR.Tran (AllPairs)

/-- **C85**.  On every valid mesh, however it is distributed, `ReorderLocalCells` returns.  The ranks then have the same mesh under
new cell numbers: a permutation of the numbers of each rank, under which types, nodes, boundary elements, ghost layer, neighbours
and boundary cells are what they were.  The numbers on a rank are the reverse of breadth first searches of the graph of its
cells in which cells with `dim` common corners are neighbours, and the two numbers reported are the largest band widths before and
after. -/
theorem reorder_same_mesh (per : Bool) (ps : List Piece) (hM : MeshOk per ps) (hs : Small (nodeLens ps)) (hs' : Small (cellLens ps))
    (dim : Nat) (hd : 1 ≤ dim) (ss : List St) (hR : RanksOk per ps ss) :
    ∃ (ps' : List Piece) (π : Int → Int) (out : List St) (bo bn : Int) (gs : List RCM.Graph) (num : Nat → Int → Int),
      reorderCells dim ss = .ok (out, bo, bn) ∧ Renumbered ps ps' π ∧ MeshOk per ps' ∧ RanksOk per ps' out ∧
      (∀ (r : Nat) (s s' : St), ss[r]? = some s → out[r]? = some s' → s'.nodeMap = s.nodeMap) ∧
      gs.length = ps.length ∧
      (∀ (r : Nat) (p : Piece) (g : RCM.Graph), ps[r]? = some p → gs[r]? = some g → FaceGraph dim p g ∧ RCM.ReverseSearch g (num r) ∧
        ∀ k : Nat, k < p.cells.length → π ((before (cellLens ps) r : Int) + k) = (before (cellLens ps) r : Int) + num r k) ∧
      LargestBand gs (fun _ => id) bo ∧ LargestBand gs num bn := by
  have hcl : (cellLens ps).length = ps.length := by simp [cellLens]
  obtain ⟨adj, hal, hadj⟩ := list_of (α := Adj) (P := fun r a => ∀ p s, ps[r]? = some p → ss[r]? = some s → ∃ x, Has per ps r p s a x) ps.length (by
    intro r hr
    obtain ⟨p, hp⟩ := at_some hr
    obtain ⟨s, hs0⟩ := at_some (l := ss) (r := r) (by rw [hR.len]; exact hr)
    obtain ⟨a, x, H⟩ := has_of hM hs hs' hp (hR.rank r p s hp hs0)
    refine ⟨a, fun p' s' hp' hs0' => ?_⟩
    rw [hp] at hp'; rw [hs0] at hs0'
    cases hp'; cases hs0'
    exact ⟨x, H⟩)
  obtain ⟨held, hhl, hheld⟩ := list_of (α := Held) (P := fun r x => ∀ p s a, ps[r]? = some p → ss[r]? = some s → adj[r]? = some a → Has per ps r p s a x)
    ps.length (by
    intro r hr
    obtain ⟨p, hp⟩ := at_some hr
    obtain ⟨s, hs0⟩ := at_some (l := ss) (r := r) (by rw [hR.len]; exact hr)
    obtain ⟨a, ha⟩ := at_some (l := adj) (r := r) (by omega)
    obtain ⟨x, H⟩ := hadj r a ha p s hp hs0
    refine ⟨x, fun p' s' a' hp' hs0' ha' => ?_⟩
    rw [hp] at hp'; rw [hs0] at hs0'; rw [ha] at ha'
    cases hp'; cases hs0'; cases ha'
    exact H)
  have hhas : ∀ (r : Nat) (p : Piece) (s : St) (a : Adj) (x : Held), ps[r]? = some p → ss[r]? = some s → adj[r]? = some a → held[r]? = some x →
      Has per ps r p s a x := fun r p s a x h1 h2 h3 h4 => hheld r x h4 p s a h1 h2 h3
  have hlens : ss.map (·.nCell) = cellLens ps := by
    refine List.ext_getElem? fun r => ?_
    by_cases hr : r < ps.length
    · obtain ⟨p, hp⟩ := at_some hr
      obtain ⟨s, hs0⟩ := at_some (l := ss) (r := r) (by rw [hR.len]; exact hr)
      obtain ⟨a, x, H⟩ := has_of hM hs hs' hp (hR.rank r p s hp hs0)
      rw [List.getElem?_map, hs0, lens_of hp, Option.map_some, H.nCell]
    · rw [List.getElem?_eq_none (by simp; have := hR.len; omega), List.getElem?_eq_none (by omega)]
  obtain ⟨gc, hg⟩ := built_exists (cellLens ps)
  -- the graphs and their orders
  obtain ⟨orders, e1, l1, P1⟩ := N2C.forRanks_all (fun _ s => do
      let g ← faceGraph dim s
      RCM.reorder g)
    (fun r _ o => ∃ g, ∀ p, ps[r]? = some p → FaceGraph dim p g ∧ RCM.Inverse g.length o.new2Old o.old2New ∧ RCM.BandWidth g id o.bandOld ∧
      RCM.BandWidth g (RCM.entry o.old2New) o.bandNew ∧ RCM.ReverseSearch g (RCM.entry o.old2New)) ss (by
      intro r s hs0
      obtain ⟨p, hp⟩ := at_some (l := ps) (r := r) (by rw [← hR.len]; exact some_lt hs0)
      obtain ⟨a, x, H⟩ := has_of hM hs hs' hp (hR.rank r p s hp hs0)
      obtain ⟨g, b1, b2, b3⟩ := faceGraph_run hM hp H.held H.prim H.info H.cmap H.state hd
      have hsz : g.length ≤ 2 ^ 31 := by
        have h1 := small_sum hs'
        have hr : r < (cellLens ps).length := by rw [hcl]; exact some_lt hp
        have h2 := before_succ (cellLens ps) r hr
        have h3 := before_le_total (cellLens ps) (r + 1)
        have h5 : (cellLens ps)[r] = p.cells.length := by
          have := lens_of hp
          rw [List.getElem?_eq_getElem hr] at this
          exact Option.some.inj this
        have h4 : Defines.intMax 32 ≤ 2 ^ 31 := by decide
        rw [b2.size]
        omega
      obtain ⟨o, c1, c2, c3, c4, c5⟩ := RCM.reorder_permutation b3 hsz
      refine ⟨o, by simp only [b1, Res.ok_bind, c1], g, fun p' hp' => ?_⟩
      rw [hp] at hp'
      cases hp'
      exact ⟨b2, c2, c3, c4, c5⟩)
  rw [hR.len] at l1
  have P1' : ∀ (r : Nat) (o : RCM.Order), orders[r]? = some o → ∃ g, ∀ p, ps[r]? = some p → FaceGraph dim p g ∧ RCM.Inverse g.length o.new2Old o.old2New ∧
      RCM.BandWidth g id o.bandOld ∧ RCM.BandWidth g (RCM.entry o.old2New) o.bandNew ∧ RCM.ReverseSearch g (RCM.entry o.old2New) := by
    intro r o ho
    obtain ⟨s, hs0⟩ := at_some (l := ss) (r := r) (by rw [hR.len, ← l1]; exact some_lt ho)
    exact P1 r s o hs0 ho
  obtain ⟨gs, l2, P2⟩ := list_of (α := RCM.Graph) (P := fun r g => ∀ p o, ps[r]? = some p → orders[r]? = some o → FaceGraph dim p g ∧
      RCM.Inverse p.cells.length o.new2Old o.old2New ∧
      RCM.BandWidth g id o.bandOld ∧ RCM.BandWidth g (RCM.entry o.old2New) o.bandNew ∧ RCM.ReverseSearch g (RCM.entry o.old2New)) ps.length (by
    intro r hr
    obtain ⟨p, hp⟩ := at_some hr
    obtain ⟨o, ho⟩ := at_some (l := orders) (r := r) (by omega)
    obtain ⟨g, hgr⟩ := P1' r o ho
    refine ⟨g, fun p' o' hp' ho' => ?_⟩
    rw [ho] at ho'
    cases ho'
    obtain ⟨d1, d2, d3⟩ := hgr p' hp'
    exact ⟨d1, by rw [← d1.size]; exact d2, d3⟩)
  have hinv : ∀ (r : Nat) (p : Piece) (o : RCM.Order), ps[r]? = some p → orders[r]? = some o → RCM.Inverse p.cells.length o.new2Old o.old2New := by
    intro r p o hp ho
    obtain ⟨g, hgr⟩ := at_some (l := gs) (r := r) (by rw [l2]; exact some_lt hp)
    exact (P2 r g hgr p o hp ho).2.1
  obtain ⟨o2n, css, e2, hN⟩ := numbering_exists hg l1 hinv hlens
  obtain ⟨out, e3, hOut, hnm⟩ := reorder_rest hM hs hs' hR.len hal hhl hhas hg hN
  refine ⟨piecesOf ps css, newOf o2n, out, (orders.map (·.bandOld)).foldl max 0, (orders.map (·.bandNew)).foldl max 0, gs, fun r => RCM.entry ((orders[r]?.map (·.old2New)).getD []), ?_, hN.renumbered hg, (hN.renumbered hg).meshOk hM,
    hOut, hnm, l2, ?_, ?_, ?_⟩
  rotate_left
  · intro r p g hp hgr
    obtain ⟨o, ho⟩ := at_some (l := orders) (r := r) (by rw [l1]; exact some_lt hp)
    obtain ⟨d1, d2, d3, d4, d5⟩ := P2 r g hgr p o hp ho
    simp only [ho, Option.map_some, Option.getD_some]
    exact ⟨d1, d5, fun k hk => hN.number hp ho hk⟩
  · constructor
    · intro r g w hgr hw
      obtain ⟨p, hp⟩ := at_some (l := ps) (r := r) (by rw [← l2]; exact some_lt hgr)
      obtain ⟨o, ho⟩ := at_some (l := orders) (r := r) (by rw [l1]; exact some_lt hp)
      obtain ⟨d1, d2, d3, d4, d5⟩ := P2 r g hgr p o hp ho
      exact (band_unique hw d3).trans ((foldl_max_le _ 0).2 _ (List.mem_map.2 ⟨o, List.mem_of_getElem? ho, rfl⟩))
    · rcases foldl_max_mem (orders.map (·.bandOld)) 0 with h | h
      · exact Or.inl h
      · obtain ⟨o, ho, e⟩ := List.mem_map.1 h
        obtain ⟨r, ho⟩ := List.mem_iff_getElem?.1 ho
        obtain ⟨p, hp⟩ := at_some (l := ps) (r := r) (by rw [← l1]; exact some_lt ho)
        obtain ⟨g, hgr⟩ := at_some (l := gs) (r := r) (by rw [l2]; exact some_lt hp)
        rw [← e]
        exact Or.inr ⟨r, g, hgr, (P2 r g hgr p o hp ho).2.2.1⟩
  · constructor
    · intro r g w hgr hw
      obtain ⟨p, hp⟩ := at_some (l := ps) (r := r) (by rw [← l2]; exact some_lt hgr)
      obtain ⟨o, ho⟩ := at_some (l := orders) (r := r) (by rw [l1]; exact some_lt hp)
      obtain ⟨d1, d2, d3, d4, d5⟩ := P2 r g hgr p o hp ho
      simp only [ho, Option.map_some, Option.getD_some] at hw
      exact (band_unique hw d4).trans ((foldl_max_le _ 0).2 _ (List.mem_map.2 ⟨o, List.mem_of_getElem? ho, rfl⟩))
    · rcases foldl_max_mem (orders.map (·.bandNew)) 0 with h | h
      · exact Or.inl h
      · obtain ⟨o, ho, e⟩ := List.mem_map.1 h
        obtain ⟨r, ho⟩ := List.mem_iff_getElem?.1 ho
        obtain ⟨p, hp⟩ := at_some (l := ps) (r := r) (by rw [← l1]; exact some_lt ho)
        obtain ⟨g, hgr⟩ := at_some (l := gs) (r := r) (by rw [l2]; exact some_lt hp)
        rw [← e]
        refine Or.inr ⟨r, g, hgr, ?_⟩
        simp only [ho, Option.map_some, Option.getD_some]
        exact (P2 r g hgr p o hp ho).2.2.2.1
  · have hg' : setMPIAlignBcast ((cellLens ps).map Int.ofNat) = .ok gc := hg
    unfold reorderCells
    simp only [hlens, hg', Res.ok_bind, e1, e2, e3]

/-- what a rank has after the ghost layer is built and the numbers are local (C74) is what the renumbering starts from -/
theorem ranks_of_built {per : Bool} {ps : List Piece} (hM : MeshOk per ps) (hs : Small (nodeLens ps)) (hs' : Small (cellLens ps)) {adj : List Adj}
    (hal : adj.length = ps.length) (hadj : ∀ (r : Nat) (p : Piece) (a : Adj), ps[r]? = some p → adj[r]? = some a → AdjOk per ps r p a) :
    ∃ held prim, buildGhost ps adj = .ok held ∧
      forRanks (fun _ (x : Piece × Adj × Held) => toLocalPrimary x.1.bnds x.2.1 x.2.2) 0 (ps.zip (adj.zip held)) = .ok prim ∧
      RanksOk per ps ((held.zip prim).map (fun x => stOf x.1 x.2)) := by
  obtain ⟨held, e4, l4, s4⟩ := buildGhost_ok hM.parts hal hadj hs hs'
  obtain ⟨prim, e5, l5, s5⟩ := N2C.forRanks_all (fun _ (x : Piece × Adj × Held) => toLocalPrimary x.1.bnds x.2.1 x.2.2)
    (fun r x y => PrimaryOk ps r x.1 x.2.1 x.2.2 y ∧ y.state = .pointToLocal) (ps.zip (adj.zip held)) (by
      intro r x hx
      obtain ⟨h1, h2⟩ := List.getElem?_zip_eq_some.1 hx
      obtain ⟨h3, h4⟩ := List.getElem?_zip_eq_some.1 h2
      obtain ⟨y, e, hy, f3⟩ := toLocal_ok hM hs hs' h1 (hadj r _ _ h1 h3).toAdjMeans (s4 r _ h4).toHeldMeans
      refine ⟨y, e, hy, ?_⟩
      rw [adjLocal2GlobalPrimary, Res.bind_ok_iff] at f3
      obtain ⟨_, h8, _⟩ := f3
      exact (Res.assert_ok_iff _ _).1 h8)
  have l5' : prim.length = ps.length := by rw [l5, List.length_zip, List.length_zip]; omega
  refine ⟨held, prim, e4, e5, by rw [List.length_map, List.length_zip]; omega, ?_⟩
  intro r p s hp hs0
  rw [List.getElem?_map] at hs0
  obtain ⟨⟨x, y⟩, hz, rfl⟩ := Option.map_eq_some_iff.1 hs0
  obtain ⟨hx, hy⟩ := List.getElem?_zip_eq_some.1 hz
  obtain ⟨a, ha⟩ := at_some (l := adj) (r := r) (by rw [hal]; exact some_lt hp)
  obtain ⟨h1, h2⟩ := s5 r (p, a, x) y (List.getElem?_zip_eq_some.2 ⟨hp, List.getElem?_zip_eq_some.2 ⟨ha, hx⟩⟩) hy
  exact ⟨⟨a, x, (hadj r p a hp ha).toAdjMeans, (s4 r x hx).toHeldMeans, h1, rfl, rfl, rfl⟩, h2⟩

/-- **C85**, the faces.  On ranks that have a mesh, however its cells were numbered, `InterpolateFace` returns and gives one numbering
of the faces of that mesh (C71). -/
theorem faces_of_ranks (per : Bool) (srt : Sorter) (hsrt : Sorts srt) (ps : List Piece) (hM : MeshOk per ps) (ss : List St) (hR : RanksOk per ps ss) (gc : GOM)
    (hgc : Built (cellLens ps) gc) :
    ∃ outs F, interpolate per srt gc (ss.map (·.rankIn)) = .ok outs ∧ Numbered per (cellLens ps) (nodeLens ps) (whole ps) (ss.map (·.rankIn)) outs F := by
  obtain ⟨held, hhl, hheld⟩ := list_of (α := Held) (P := fun r x => ∀ p s, ps[r]? = some p → ss[r]? = some s → HeldMeans ps r x ∧
      (∃ a, PrimaryOk ps r p a x s.prim) ∧ s = stOf x s.prim) ps.length (by
    intro r hr
    obtain ⟨p, hp⟩ := at_some hr
    obtain ⟨s, hs0⟩ := at_some (l := ss) (r := r) (by rw [hR.len]; exact hr)
    obtain ⟨⟨a, x, h1, h2, h3, h4, h5, h6⟩, _⟩ := hR.rank r p s hp hs0
    refine ⟨x, fun p' s' hp' hs0' => ?_⟩
    rw [hp] at hp'; rw [hs0] at hs0'
    cases hp'; cases hs0'
    refine ⟨h2, ⟨a, h3⟩, ?_⟩
    obtain ⟨i, q, cm, nm⟩ := s
    simp only at h4 h5 h6
    subst h4 h5 h6
    rfl)
  obtain ⟨adj, hal, hadj⟩ := list_of (α := Adj) (P := fun r a => ∀ p s x, ps[r]? = some p → ss[r]? = some s → held[r]? = some x → PrimaryOk ps r p a x s.prim)
    ps.length (by
    intro r hr
    obtain ⟨p, hp⟩ := at_some hr
    obtain ⟨s, hs0⟩ := at_some (l := ss) (r := r) (by rw [hR.len]; exact hr)
    obtain ⟨x, hx⟩ := at_some (l := held) (r := r) (by omega)
    obtain ⟨_, ⟨a, h⟩, _⟩ := hheld r x hx p s hp hs0
    refine ⟨a, fun p' s' x' hp' hs0' hx' => ?_⟩
    rw [hp] at hp'; rw [hs0] at hs0'; rw [hx] at hx'
    cases hp'; cases hs0'; cases hx'
    exact h)
  have heq : ss.map (·.rankIn) = (held.zip (ss.map (·.prim))).map (fun x => toRankIn x.1 x.2) := by
    refine List.ext_getElem? fun r => ?_
    by_cases hr : r < ps.length
    · obtain ⟨p, hp⟩ := at_some hr
      obtain ⟨s, hs0⟩ := at_some (l := ss) (r := r) (by rw [hR.len]; exact hr)
      obtain ⟨x, hx⟩ := at_some (l := held) (r := r) (by omega)
      obtain ⟨_, _, h⟩ := hheld r x hx p s hp hs0
      have hz : (held.zip (ss.map (·.prim)))[r]? = some (x, s.prim) :=
        List.getElem?_zip_eq_some.2 ⟨hx, by rw [List.getElem?_map, hs0]; rfl⟩
      rw [List.getElem?_map, List.getElem?_map, hs0, hz, Option.map_some, Option.map_some]
      refine congrArg some ?_
      rw [h]
      simp only [St.rankIn, stOf, toRankIn, List.zip_map_left, List.map_map]
      rfl
    · have := hR.len
      rw [List.getElem?_eq_none (by simp; omega), List.getElem?_eq_none (by simp; omega)]
  rw [heq]
  exact faces_global per srt hsrt _ _ _ gc _ (distributed hM hgc hal hhl (fun r x hx => by
      obtain ⟨p, hp⟩ := at_some (l := ps) (r := r) (by rw [← hhl]; exact some_lt hx)
      obtain ⟨s, hs0⟩ := at_some (l := ss) (r := r) (by rw [hR.len]; exact some_lt hp)
      exact (hheld r x hx p s hp hs0).1) (by rw [List.length_map]; exact hR.len) (fun r p a x y hp ha hx hy => by
      rw [List.getElem?_map] at hy
      obtain ⟨s, hs0, rfl⟩ := Option.map_eq_some_iff.1 hy
      exact hadj r a ha p s x hp hs0 hx))

/-- **C85**, from the parts of a mesh to the faces, with the cells renumbered in between. For every valid mesh cut into parts in any way,
whatever the order of hash containers and messages, the sequence of calls returns, the ranks have the given mesh under new cell numbers,
and the faces of all ranks are one numbering of the faces of the mesh. -/
theorem mesh_built_reordered (dim : Nat) (hd : 1 ≤ dim) (per : Bool) (h : Hash) (hf : Fair h) (u : Bool) (srt : Sorter) (hsrt : Sorts srt) (ps : List Piece)
    (order : List (Nat × Nat)) (ho : AllPairs ps.length order) (hM : MeshOk per ps)
    (hb : entries (ps.map (fun p => p.cells.map (·.nodes))) < Arr.int32Max) (hs : Small (nodeLens ps)) (hs' : Small (cellLens ps)) :
    ∃ (out : List (St × RankOut)) (ps' : List Piece) (π : Int → Int) (F : Nat → Nat → Int), buildReordered dim per h u srt order ps = .ok out ∧
      out.length = ps.length ∧ Renumbered ps ps' π ∧ RanksOk per ps' (out.map (·.1)) ∧
      Numbered per (cellLens ps') (nodeLens ps') (whole ps') ((out.map (·.1)).map (·.rankIn)) (out.map (·.2)) F := by
  have hP := hM.parts
  obtain ⟨arrs, n2c, e1, e2, hN⟩ := node2cell_rows h hf u ps order ho per hP hb
  obtain ⟨adj, e3⟩ := (recover_returns_iff per h hf ps n2c hP hN hs hs').2 (by
    intro p hp b hb
    obtain ⟨r, hr⟩ := List.mem_iff_getElem?.1 hp
    obtain ⟨x, hx, _⟩ := hM.home r p b hr hb
    exact ⟨x, hx⟩)
  obtain ⟨l3, s3⟩ := recover_ok hf hP hN e3
  obtain ⟨held, prim, e4, e5, hR⟩ := ranks_of_built hM hs hs' l3 s3
  obtain ⟨ps', π, out, bo, bn, gs, num, e6, hRe, hM', hR', -⟩ := reorder_same_mesh per ps hM hs hs' dim hd _ hR
  obtain ⟨gc, hgc⟩ := built_exists (cellLens ps)
  have g1 : setMPIAlignBcast ((ps.map (·.cells.length)).map Int.ofNat) = .ok gc := hgc
  obtain ⟨outs, F, e7, hnum⟩ := faces_of_ranks per srt hsrt ps' hM' out hR' gc (by rw [hRe.cellLens]; exact hgc)
  have l7 : outs.length = out.length := by rw [hnum.size, List.length_map]
  have lo : out.length = ps.length := hR'.len.trans hRe.ranks
  refine ⟨out.zip outs, ps', π, F, ?_, by rw [List.length_zip]; omega, hRe, ?_, ?_⟩
  · simp only [buildReordered, e1, Res.ok_bind, e2, e3, e4, e5, e6, g1, e7]
  · rw [List.map_fst_zip (by omega)]; exact hR'
  · rw [List.map_fst_zip (by omega), List.map_snd_zip (by omega)]; exact hnum

/-- the ring of three cells on two ranks is renumbered -/
example (srt : Sorter) (hs : Sorts srt) : ∃ out, buildReordered 2 true demoHash false srt
    ((List.range 2).flatMap fun s => (List.range 2).map fun d => (s, d)) Ring.parts = .ok out ∧ out.length = 2 := by
  obtain ⟨out, ps', π, F, h1, h2, -⟩ := mesh_built_reordered 2 (by omega) true demoHash demoHash_fair false srt hs Ring.parts
    ((List.range 2).flatMap fun s => (List.range 2).map fun d => (s, d)) (by
      rintro ⟨s, d⟩
      simp only [List.mem_flatMap, List.mem_map, List.mem_range, Prod.mk.injEq]
      constructor
      · rintro ⟨s', h1, d', h2, rfl, rfl⟩; exact ⟨h1, h2⟩
      · rintro ⟨h1, h2⟩; exact ⟨s, h1, d, h2, rfl, rfl⟩) Ring.mesh_ok (by decide +kernel) Ring.small.1 Ring.small.2
  exact ⟨out, h1, h2⟩

end DNDSR.Reorder
