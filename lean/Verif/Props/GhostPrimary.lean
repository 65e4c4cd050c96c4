import Verif.Proof.GhostMesh

/-!
# C72, C73, C74: neighbours, boundary cells and the ghost layer
-/

namespace DNDSR.Ghost

open DNDSR.IMap DNDSR.MeshAdj DNDSR.N2C DNDSR.Faces DNDSR.Elem DNDSR.Tran

/-! ### C72, C73 -/

/-- **C72**. If `RecoverCell2CellAndBnd2Cell` returns, then on every rank `cell2cell` has a row for every cell of the rank, in
ascending order, with exactly the other cells of the whole mesh that share a node with it. -/
theorem cell2cell_exact (per : Bool) (h : Hash) (hf : Fair h) (ps : List Piece) (n2c : List (List (List Int))) (hP : PartsOk per ps)
    (hN : N2COk ps n2c) (out : List Adj) (ho : recover per h ps n2c = .ok out) :
    out.length = ps.length ∧ ∀ (r : Nat) (p : Piece) (a : Adj), ps[r]? = some p → out[r]? = some a → a.c2c.length = p.cells.length ∧
      ∀ (k : Nat) (row : List Int), a.c2c[k]? = some row → row.Pairwise (· < ·) ∧
        ∀ c, c ∈ row ↔ c ≠ (before (cellLens ps) r : Int) + k ∧ ∃ q, HasNode ps ((before (cellLens ps) r : Int) + k) q ∧ HasNode ps c q := by
  obtain ⟨h1, h2⟩ := recover_ok hf hP hN ho
  refine ⟨h1, fun r p a hp ha => ?_⟩
  have hA := h2 r p a hp ha
  exact ⟨hA.rows, fun k row hk => ⟨hA.sorted row (List.mem_of_getElem? hk), hA.exact_ k row hk⟩⟩

/-- **C72**, the relation is symmetric across ranks: if cell `k` of rank `r` lists cell `k'` of rank `r'`, the latter lists the
former. -/
theorem cell2cell_symm (per : Bool) (h : Hash) (hf : Fair h) (ps : List Piece) (n2c : List (List (List Int))) (hP : PartsOk per ps)
    (hN : N2COk ps n2c) (out : List Adj) (ho : recover per h ps n2c = .ok out) (r r' k k' : Nat) (a a' : Adj) (row row' : List Int)
    (ha : out[r]? = some a) (ha' : out[r']? = some a') (hk : a.c2c[k]? = some row) (hk' : a'.c2c[k']? = some row')
    (hm : (before (cellLens ps) r' : Int) + k' ∈ row) : (before (cellLens ps) r : Int) + k ∈ row' := by
  obtain ⟨h1, h2⟩ := cell2cell_exact per h hf ps n2c hP hN out ho
  have hat : ∀ (s : Nat) (b : Adj), out[s]? = some b → ∃ p : Piece, ps[s]? = some p := by
    intro s b hb
    have : s < ps.length := by rw [← h1]; exact (List.getElem?_eq_some_iff.1 hb).1
    exact ⟨_, List.getElem?_eq_getElem this⟩
  obtain ⟨p, hp⟩ := hat r a ha
  obtain ⟨p', hp'⟩ := hat r' a' ha'
  obtain ⟨e, q, e1, e2⟩ := (((h2 r p a hp ha).2 k row hk).2 _).1 hm
  exact (((h2 r' p' a' hp' ha').2 k' row' hk').2 _).2 ⟨fun x => e x.symm, q, e2, e1⟩

/-- **C73**. If `RecoverCell2CellAndBnd2Cell` returns, `bnd2cell` gives for every boundary element of every rank the one cell of
the whole mesh that has all its nodes and the mark "no cell"; for an element of a periodic zone of a periodic mesh it gives the
two cells that have all its nodes, first the one whose periodic bits at those nodes are the bits of the zone. -/
theorem bnd2cell_exact (per : Bool) (h : Hash) (hf : Fair h) (ps : List Piece) (n2c : List (List (List Int))) (hP : PartsOk per ps)
    (hN : N2COk ps n2c) (out : List Adj) (ho : recover per h ps n2c = .ok out) (r : Nat) (p : Piece) (a : Adj) (hp : ps[r]? = some p)
    (ha : out[r]? = some a) : a.b2c.length = p.bnds.length ∧
      ∀ (k : Nat) (b : Bnd) (x : Int × Int), p.bnds[k]? = some b → a.b2c[k]? = some x → BndOk per ps b x :=
  have hA := (recover_ok hf hP hN ho).2 r p a hp ha
  ⟨hA.bnds, hA.bnd⟩

/-- **C73**, it returns exactly if every boundary element has such cells (for meshes whose number of ranks times number of cells
or nodes of a rank fits `int`). -/
theorem recover_returns_iff (per : Bool) (h : Hash) (hf : Fair h) (ps : List Piece) (n2c : List (List (List Int))) (hP : PartsOk per ps)
    (hN : N2COk ps n2c) (hs : Small (nodeLens ps)) (hs' : Small (cellLens ps)) :
    (∃ out, recover per h ps n2c = .ok out) ↔ ∀ p ∈ ps, ∀ b ∈ p.bnds, ∃ x, BndOk per ps b x := by
  constructor
  · rintro ⟨out, ho⟩ p hp b hb
    obtain ⟨h1, h2⟩ := recover_ok hf hP hN ho
    obtain ⟨r, hr⟩ := List.mem_iff_getElem?.1 hp
    have hr' : r < out.length := by rw [h1]; exact (List.getElem?_eq_some_iff.1 hr).1
    have hA := h2 r p _ hr (List.getElem?_eq_getElem hr')
    obtain ⟨k, hk⟩ := List.mem_iff_getElem?.1 hb
    have hk' : k < out[r].b2c.length := by rw [hA.bnds]; exact (List.getElem?_eq_some_iff.1 hk).1
    exact ⟨_, hA.bnd k b _ hk (List.getElem?_eq_getElem hk')⟩
  · exact recover_exists hf hP hN hs hs'

/-- the cells of a boundary element are determined by the mesh: ranks cannot disagree about them -/
theorem bnd2cell_unique {per : Bool} {ps : List Piece} {b : Bnd} {x y : Int × Int} (hx : BndOk per ps b x) (hy : BndOk per ps b y) : x = y :=
  bndOk_unique hx hy

/-! ### C74 -/

/-- **C74**, the ghost layer. `BuildGhostPrimary` returns, and every rank then holds its own cells and copies of exactly the cells
of other ranks that share a node with one of them, its own nodes and copies of exactly the nodes of other ranks that those cells
have; each copy is the cell and the `cell2cell` row of its owner. -/
theorem ghost_layer (per : Bool) (ps : List Piece) (adj : List Adj) (hP : PartsOk per ps) (hal : adj.length = ps.length)
    (hadj : ∀ (r : Nat) (p : Piece) (a : Adj), ps[r]? = some p → adj[r]? = some a → AdjOk per ps r p a)
    (hs : Small (nodeLens ps)) (hs' : Small (cellLens ps)) :
    ∃ held, buildGhost ps adj = .ok held ∧ held.length = ps.length ∧ ∀ (r : Nat) (x : Held), held[r]? = some x → HeldOk ps r x :=
  buildGhost_ok hP hal hadj hs hs'

/-- the rows that C25 describes are what the next step reads -/
theorem node2cell_rows (h : Hash) (hf : Fair h) (u : Bool) (ps : List Piece) (order : List (Nat × Nat)) (ho : AllPairs ps.length order)
    (per : Bool) (hP : PartsOk per ps) (hb : entries (ps.map (fun p => p.cells.map (·.nodes))) < Arr.int32Max) :
    ∃ arrs n2c, node2Cell h u (ps.map (·.nNodes)) (ps.map (fun p => p.cells.map (·.nodes))) order = .ok arrs ∧
      forRanks (fun _ a => readAll a) 0 arrs = .ok n2c ∧ N2COk ps n2c := by
  obtain ⟨arrs, e1, l1, s1⟩ := node2cell_exact h hf u (ps.map (·.nNodes)) (ps.map (fun p => p.cells.map (·.nodes))) (by simp) order
    (by simpa using ho) (by
      intro rows hrows row hrow q hq
      obtain ⟨p, hp, rfl⟩ := List.mem_map.1 hrows
      obtain ⟨C, hC, rfl⟩ := List.mem_map.1 hrow
      exact (hP.cells p hp C hC).2 q hq) hb
  have hl : arrs.length = ps.length := by rw [l1]; simp
  obtain ⟨n2c, e2, l2, s2⟩ := N2C.forRanks_all (fun _ a => readAll a) (fun r a rows => ∃ n, (nodeLens ps)[r]? = some n ∧ rows.length = n ∧
      ∀ (i : Nat) (row : List Int), rows[i]? = some row → ∀ c, c ∈ row ↔ HasNode ps c ((before (nodeLens ps) r : Int) + i)) arrs (by
      intro r a ha
      have hr : r < ps.length := by rw [← hl]; exact (List.getElem?_eq_some_iff.1 ha).1
      have hn : (ps.map (·.nNodes))[r]? = some ps[r].nNodes := by rw [List.getElem?_map, List.getElem?_eq_getElem hr]; rfl
      obtain ⟨rows, h1, h2, h3⟩ := s1 r _ a hn ha
      refine ⟨rows, readAll_rep h1, _, hn, h2, ?_⟩
      intro i row hrow c
      exact ((h3 i row hrow).2 c).trans (refers_iff ps c _))
  have hlen : n2c.map List.length = nodeLens ps := by
    refine List.ext_getElem? fun r => ?_
    rw [List.getElem?_map]
    by_cases hr : r < n2c.length
    · obtain ⟨n, h1, h2, _⟩ := s2 r _ n2c[r] (List.getElem?_eq_getElem (by omega)) (List.getElem?_eq_getElem hr)
      rw [List.getElem?_eq_getElem hr, h1, Option.map_some, h2]
    · rw [List.getElem?_eq_none (by omega), List.getElem?_eq_none (by simp [nodeLens]; omega)]; rfl
  refine ⟨arrs, n2c, e1, e2, hlen, ?_⟩
  intro i row hi c
  have hlt := (List.getElem?_eq_some_iff.1 hi).1
  rw [List.length_flatten] at hlt
  obtain ⟨r, hr⟩ := owns_exists (lens := n2c.map List.length) (q := (i : Int)) (by omega) (by omega)
  obtain ⟨own, o1, o2, o3⟩ := owns_flatten hr
  have hr' : r < arrs.length := by rw [← l2]; exact (List.getElem?_eq_some_iff.1 o1).1
  obtain ⟨n, h1, h2, h3⟩ := s2 r _ own (List.getElem?_eq_getElem hr') o1
  rw [show ((i : Nat) : Int).toNat = i by omega, hi] at o3
  have := h3 _ row o3.symm c
  rw [hlen] at this hr
  have he : (before (nodeLens ps) r : Int) + (((i : Int) - before (nodeLens ps) r).toNat : Int) = i := by
    obtain ⟨_, z, _⟩ := hr; omega
  rw [he] at this
  exact this

/-- **C74**, from the parts of a mesh to its faces. For every valid mesh cut into parts in any way, whatever the order of hash
containers and messages, the sequence of calls returns.  Afterwards neighbours, boundary cells, ghost layer and local names are as
specified, and the faces of all ranks are one numbering of the faces of the mesh (C71). -/
theorem mesh_built (per : Bool) (h : Hash) (hf : Fair h) (u : Bool) (srt : Sorter) (hsrt : Sorts srt) (ps : List Piece)
    (order : List (Nat × Nat)) (ho : AllPairs ps.length order) (hM : MeshOk per ps)
    (hb : entries (ps.map (fun p => p.cells.map (·.nodes))) < Arr.int32Max) (hs : Small (nodeLens ps)) (hs' : Small (cellLens ps)) :
    ∃ (out : List (Adj × Primary × RankOut)) (held : List Held) (F : Nat → Nat → Int), buildMesh per h u srt order ps = .ok out ∧
      out.length = ps.length ∧ held.length = ps.length ∧
      (∀ (r : Nat) (p : Piece) (x : Held) (a : Adj) (y : Primary) (o : RankOut), ps[r]? = some p → held[r]? = some x → out[r]? = some (a, y, o) →
        AdjOk per ps r p a ∧ HeldOk ps r x ∧ PrimaryOk ps r p a x y) ∧
      Numbered per (cellLens ps) (nodeLens ps) (whole ps) ((held.zip (out.map (·.2.1))).map (fun x => toRankIn x.1 x.2)) (out.map (·.2.2)) F := by
  have hP := hM.parts
  obtain ⟨arrs, n2c, e1, e2, hN⟩ := node2cell_rows h hf u ps order ho per hP hb
  obtain ⟨adj, e3⟩ := (recover_returns_iff per h hf ps n2c hP hN hs hs').2 (by
    intro p hp b hb
    obtain ⟨r, hr⟩ := List.mem_iff_getElem?.1 hp
    obtain ⟨x, hx, _⟩ := hM.home r p b hr hb
    exact ⟨x, hx⟩)
  obtain ⟨l3, s3⟩ := recover_ok hf hP hN e3
  obtain ⟨held, e4, l4, s4⟩ := buildGhost_ok hP l3 s3 hs hs'
  obtain ⟨prim, e5, l5, s5⟩ := N2C.forRanks_all (fun _ (x : Piece × Adj × Held) => toLocalPrimary x.1.bnds x.2.1 x.2.2)
    (fun r x y => PrimaryOk ps r x.1 x.2.1 x.2.2 y) (ps.zip (adj.zip held)) (by
      intro r x hx
      obtain ⟨h1, h2⟩ := List.getElem?_zip_eq_some.1 hx
      obtain ⟨h3, h4⟩ := List.getElem?_zip_eq_some.1 h2
      obtain ⟨y, e, hy, -⟩ := toLocal_ok hM hs hs' h1 (s3 r _ _ h1 h3).toAdjMeans (s4 r _ h4).toHeldMeans
      exact ⟨y, e, hy⟩)
  have l5' : prim.length = ps.length := by rw [l5, List.length_zip, List.length_zip]; omega
  have s5' : ∀ (r : Nat) (p : Piece) (a : Adj) (x : Held) (y : Primary), ps[r]? = some p → adj[r]? = some a → held[r]? = some x → prim[r]? = some y →
      PrimaryOk ps r p a x y := by
    intro r p a x y hp ha hx hy
    exact s5 r (p, a, x) y (List.getElem?_zip_eq_some.2 ⟨hp, List.getElem?_zip_eq_some.2 ⟨ha, hx⟩⟩) hy
  obtain ⟨gc, hgc⟩ := built_exists (cellLens ps)
  have g1 : setMPIAlignBcast ((ps.map (·.cells.length)).map Int.ofNat) = .ok gc := hgc
  obtain ⟨outs, F, e6, hnum⟩ := faces_global per srt hsrt _ _ _ gc _ (distributed hM hgc l3 l4 (fun r x hx => (s4 r x hx).toHeldMeans) l5' s5')
  have l6 : outs.length = ps.length := by
    rw [hnum.size, List.length_map, List.length_zip]; omega
  have m1 : (adj.zip (prim.zip outs)).map (·.2.1) = prim := by
    rw [show (adj.zip (prim.zip outs)).map (·.2.1) = ((adj.zip (prim.zip outs)).map Prod.snd).map Prod.fst by rw [List.map_map]; rfl,
      List.map_snd_zip (by rw [List.length_zip]; omega), List.map_fst_zip (by omega)]
  have m2 : (adj.zip (prim.zip outs)).map (·.2.2) = outs := by
    rw [show (adj.zip (prim.zip outs)).map (·.2.2) = ((adj.zip (prim.zip outs)).map Prod.snd).map Prod.snd by rw [List.map_map]; rfl,
      List.map_snd_zip (by rw [List.length_zip]; omega), List.map_snd_zip (by omega)]
  refine ⟨adj.zip (prim.zip outs), held, F, ?_, ?_, l4, ?_, ?_⟩
  · simp only [buildMesh, e1, Res.ok_bind, e2, e3, e4, e5, g1, e6]
  · rw [List.length_zip, List.length_zip]; omega
  · intro r p x a y o hp hx hz
    obtain ⟨ha, hz2⟩ := List.getElem?_zip_eq_some.1 hz
    obtain ⟨hy, _⟩ := List.getElem?_zip_eq_some.1 hz2
    exact ⟨s3 r p a hp ha, s4 r x hx, s5' r p a x y hp ha hx hy⟩
  · rw [m1, m2]; exact hnum

/-! ### the theorems apply -/

namespace Ring

/-- three quadrilaterals in a ring: nodes 0, 1, 2 below and 3, 4, 5 above; the third cell reaches nodes 0 and 3 across the
periodic boundary.  Rank 0 has the first cell, a wall and the main side of the periodic boundary, rank 1 the others and the donor
side. -/
def parts : List Piece :=
  [⟨[⟨.quad4, [0, 1, 4, 3], [0#8, 0#8, 0#8, 0#8]⟩], [⟨1, [0, 1]⟩, ⟨-1, [0, 3]⟩], 4⟩,
   ⟨[⟨.quad4, [1, 2, 5, 4], [0#8, 0#8, 0#8, 0#8]⟩, ⟨.quad4, [2, 0, 3, 5], [0#8, 1#8, 1#8, 0#8]⟩], [⟨2, [4, 5]⟩, ⟨-4, [0, 3]⟩], 2⟩]

theorem hasNode_dec {ps : List Piece} {c q : Int} : HasNode ps c q ↔ 0 ≤ c ∧ ∃ C ∈ (whole ps)[c.toNat]?, q ∈ C.nodes := by
  constructor
  · rintro ⟨C, ⟨h1, h2⟩, h3⟩; exact ⟨h1, C, h2, h3⟩
  · rintro ⟨h1, C, h2, h3⟩; exact ⟨C, ⟨h1, h2⟩, h3⟩

instance (ps : List Piece) (c q : Int) : Decidable (HasNode ps c q) :=
  decidable_of_iff (0 ≤ c ∧ ∃ C ∈ (whole ps)[c.toNat]?.toList, q ∈ C.nodes) (by
    rw [hasNode_dec]
    refine and_congr_right fun _ => ?_
    cases (whole ps)[c.toNat]? <;> simp)

instance (ps : List Piece) (c : Int) (b : Bnd) : Decidable (Covers ps c b) := by unfold Covers; infer_instance

theorem covers_of {b : Bnd} {L : List Int} (hb : b.nodes ≠ []) (h : ∀ c ∈ [0, 1, 2], Covers parts c b ↔ c ∈ L) (hL : ∀ c ∈ L, c ∈ [(0 : Int), 1, 2]) (c : Int) :
    Covers parts c b ↔ c ∈ L := by
  by_cases hc : c ∈ [(0 : Int), 1, 2]
  · exact h c hc
  · constructor
    · intro hcov
      obtain ⟨q, hq⟩ := List.exists_mem_of_ne_nil _ hb
      obtain ⟨C, h1, _⟩ := hcov q hq
      have h2 := isCell_global h1
      have h3 : (cellLens parts).sum = 3 := by decide
      obtain ⟨h4, h5⟩ := h2
      rw [h3] at h5
      have : c = 0 ∨ c = 1 ∨ c = 2 := by omega
      rcases this with rfl | rfl | rfl <;> simp at hc
    · intro hm; exact absurd (hL c hm) hc

instance (C : Cell) (b : Bnd) : Decidable (OnSide C b) :=
  decidable_of_iff (∀ q ∈ b.nodes, ∀ z ∈ C.nodes.zip C.pbi, z.1 = q → z.2 &&& dirBit b.zone = if isDonor b.zone then dirBit b.zone else 0#8) (by
    constructor
    · intro h q v hq hz; exact h q hq (q, v) hz rfl
    · rintro h q hq ⟨q', v⟩ hz rfl; exact h _ v hq hz)

theorem wall0 : BndOk true parts ⟨1, [0, 1]⟩ (0, Faces.unInit) := by
  unfold BndOk
  rw [if_neg (by decide)]
  refine ⟨rfl, fun c => ?_⟩
  rw [covers_of (L := [0]) (by decide) (by decide +kernel) (by decide)]
  simp

theorem wall1 : BndOk true parts ⟨2, [4, 5]⟩ (1, Faces.unInit) := by
  unfold BndOk
  rw [if_neg (by decide)]
  refine ⟨rfl, fun c => ?_⟩
  rw [covers_of (L := [1]) (by decide) (by decide +kernel) (by decide)]
  simp

/-- the main side belongs to the first cell, the donor side to the third -/
theorem main : BndOk true parts ⟨-1, [0, 3]⟩ (0, 2) := by
  unfold BndOk
  rw [if_pos (by decide)]
  refine ⟨by decide, fun c => ?_, ⟨.quad4, [0, 1, 4, 3], [0#8, 0#8, 0#8, 0#8]⟩, ⟨.quad4, [2, 0, 3, 5], [0#8, 1#8, 1#8, 0#8]⟩, ⟨by decide, rfl⟩,
    ⟨by decide, rfl⟩, by decide +kernel, by decide +kernel⟩
  rw [covers_of (L := [0, 2]) (by decide) (by decide +kernel) (by decide)]
  simp

theorem donor : BndOk true parts ⟨-4, [0, 3]⟩ (2, 0) := by
  unfold BndOk
  rw [if_pos (by decide)]
  refine ⟨by decide, fun c => ?_, ⟨.quad4, [2, 0, 3, 5], [0#8, 1#8, 1#8, 0#8]⟩, ⟨.quad4, [0, 1, 4, 3], [0#8, 0#8, 0#8, 0#8]⟩, ⟨by decide, rfl⟩,
    ⟨by decide, rfl⟩, by decide +kernel, by decide +kernel⟩
  rw [covers_of (L := [0, 2]) (by decide) (by decide +kernel) (by decide)]
  simp only [List.mem_cons, List.not_mem_nil, or_false]
  exact ⟨Or.symm, Or.symm⟩

def slots : List (Nat × Nat × Slot) :=
  (List.range 3).flatMap fun i => (List.range 4).map fun j => (i, j, slot true ((whole parts)[i]?.getD ⟨.unknown, [], []⟩) j)

theorem mem_slots {i j : Nat} {a : Slot} (h : IsSlot true (whole parts) i j a) : (i, j, a) ∈ slots := by
  obtain ⟨c, hc, hj, rfl⟩ := h
  have hi : i < 3 := (List.getElem?_eq_some_iff.1 hc).1
  have ht : c.type = .quad4 := by
    match i, hi with
    | 0, _ => cases hc; rfl
    | 1, _ => cases hc; rfl
    | 2, _ => cases hc; rfl
  rw [ht] at hj
  simp only [slots, List.mem_flatMap, List.mem_map, List.mem_range]
  exact ⟨i, hi, j, hj, by rw [hc]; rfl⟩

theorem mesh_ok : MeshOk true parts := by
  refine ⟨?_, ?_, ?_, ?_, ?_⟩
  · have h : ∀ C ∈ whole parts, (C.type ≠ .unknown ∧ C.nodes.length = (numNodes C.type).toNat ∧ C.pbi.length = (numNodes C.type).toNat ∧
        ∀ q ∈ C.nodes, 0 ≤ q ∧ q < ((nodeLens parts).sum : Nat)) ∧ C.nodes.Nodup := by decide +kernel
    intro C hC
    obtain ⟨⟨h1, h2, h3, h4⟩, h5⟩ := h C hC
    exact ⟨⟨h1, h2, fun _ => h3, h4⟩, h5⟩
  · have h : ∀ x ∈ slots, ∀ y ∈ slots, x.2.2.type = y.2.2.type → (corners x.2.2).Perm (corners y.2.2) → x.2.2.nodes.Perm y.2.2.nodes := by
      decide +kernel
    intro i j i' j' a b ha hb
    exact h _ (mem_slots ha) _ (mem_slots hb)
  · have h : ∀ x ∈ slots, ∀ y ∈ slots, (corners x.2.2).Perm (corners y.2.2) → ∀ z ∈ slots, (corners x.2.2).Perm (corners z.2.2) →
        (x.1, x.2.1) = (y.1, y.2.1) ∨ (x.1, x.2.1) = (z.1, z.2.1) ∨ (y.1, y.2.1) = (z.1, z.2.1) := by
      decide +kernel
    intro i1 j1 i2 j2 i3 j3 a b c ha hb hc h1 h2
    exact h _ (mem_slots ha) _ (mem_slots hb) h1.2.1 _ (mem_slots hc) h2.2.1
  · have h : ∀ p ∈ parts, ∀ b ∈ p.bnds, b.nodes ≠ [] ∧ ∀ q ∈ b.nodes, 0 ≤ q ∧ q < ((nodeLens parts).sum : Nat) := by decide +kernel
    exact h
  · intro r p b hp hb
    have ht : ∀ c : Int, Owns (cellLens parts) r c → (∃ q, HasNode parts c q) → Touches parts r c := by
      rintro c hc ⟨q, hq⟩; exact ⟨c, q, hc, hq, hq⟩
    have hr : r < 2 := (List.getElem?_eq_some_iff.1 hp).1
    match r, hr with
    | 0, _ =>
      cases hp
      simp only [List.mem_cons, List.not_mem_nil, or_false] at hb
      have h0 : Touches parts 0 0 := ht 0 (by decide +kernel) ⟨0, by decide +kernel⟩
      rcases hb with rfl | rfl
      · exact ⟨_, wall0, h0⟩
      · exact ⟨_, main, h0⟩
    | 1, _ =>
      cases hp
      simp only [List.mem_cons, List.not_mem_nil, or_false] at hb
      rcases hb with rfl | rfl
      · exact ⟨_, wall1, ht 1 (by decide +kernel) ⟨1, by decide +kernel⟩⟩
      · exact ⟨_, donor, ht 2 (by decide +kernel) ⟨0, by decide +kernel⟩⟩

theorem small : Small (nodeLens parts) ∧ Small (cellLens parts) := by
  unfold Small; decide +kernel

/-- the ring is built, on two ranks; rank 1 gets a copy of the first cell -/
example (srt : Sorter) (hs : Sorts srt) : ∃ out, buildMesh true demoHash false srt ((List.range 2).flatMap fun s => (List.range 2).map fun d => (s, d)) parts = .ok out ∧
    out.length = 2 := by
  obtain ⟨out, held, F, h1, h2, -⟩ := mesh_built true demoHash demoHash_fair false srt hs parts
    ((List.range 2).flatMap fun s => (List.range 2).map fun d => (s, d)) (by
      rintro ⟨s, d⟩
      simp only [List.mem_flatMap, List.mem_map, List.mem_range, Prod.mk.injEq]
      constructor
      · rintro ⟨s', h1, d', h2, rfl, rfl⟩; exact ⟨h1, h2⟩
      · rintro ⟨h1, h2⟩; exact ⟨s, h1, d, h2, rfl, rfl⟩) mesh_ok (by decide +kernel) small.1 small.2
  exact ⟨out, h1, h2⟩

def one : List Piece := [⟨[⟨.quad4, [0, 1, 2, 3], []⟩], [⟨1, [0, 4]⟩], 5⟩]

theorem one_parts : PartsOk false one := by
  have h1 : ∀ p ∈ one, ∀ C ∈ p.cells, (C.nodes ≠ [] ∧ ∀ q ∈ C.nodes, 0 ≤ q ∧ q < ((nodeLens one).sum : Nat)) := by decide +kernel
  have h2 : ∀ p ∈ one, ∀ b ∈ p.bnds, (b.nodes ≠ [] ∧ ∀ q ∈ b.nodes, 0 ≤ q ∧ q < ((nodeLens one).sum : Nat)) := by decide +kernel
  exact ⟨h1, h2, fun h => by cases h⟩

/-- a boundary element with a node that is in no cell is refused -/
example (h : Hash) (hf : Fair h) (n2c : List (List (List Int))) (hN : N2COk one n2c) :
    ¬ ∃ out, recover false h one n2c = .ok out := by
  rw [recover_returns_iff false h hf _ n2c one_parts hN (by unfold Small; decide +kernel) (by unfold Small; decide +kernel)]
  intro hh
  obtain ⟨x, hx⟩ := hh _ (List.mem_singleton.2 rfl) _ (List.mem_singleton.2 rfl)
  unfold BndOk at hx
  rw [if_neg (by decide)] at hx
  obtain ⟨C, ⟨h1, h2⟩, h3⟩ := (hx.2 x.1).2 rfl 4 (by decide)
  have := List.mem_of_getElem? h2
  simp only [whole, one, List.map_cons, List.map_nil, List.flatten_cons, List.flatten_nil, List.append_nil, List.mem_singleton] at this
  subst this
  revert h3; decide

end Ring

end DNDSR.Ghost
