import Verif.Proof.GhostLayer

/-!
# From the parts of a mesh to its faces
-/

namespace DNDSR.Ghost

open DNDSR.IMap DNDSR.MeshAdj DNDSR.N2C DNDSR.Faces DNDSR.Elem

theorem numNodes_pos (t : ElemType) (h : t ≠ .unknown) : 0 < (numNodes t).toNat := by
  cases t <;> first | exact absurd rfl h | decide +kernel

theorem mem_whole {ps : List Piece} {p : Piece} (hp : p ∈ ps) {C : Cell} (hC : C ∈ p.cells) : C ∈ whole ps :=
  List.mem_flatten.2 ⟨_, List.mem_map.2 ⟨p, hp, rfl⟩, hC⟩

theorem MeshOk.parts {per : Bool} {ps : List Piece} (h : MeshOk per ps) : PartsOk per ps := by
  refine ⟨?_, h.bnds, ?_⟩
  · intro p hp C hC
    have hv := (h.valid C (mem_whole hp hC)).1
    refine ⟨?_, hv.range⟩
    intro hn
    have h1 := hv.nodes
    have h2 := numNodes_pos C.type hv.known
    rw [hn] at h1
    simp only [List.length_nil] at h1
    omega
  · intro hper p hp C hC
    have hv := (h.valid C (mem_whole hp hC)).1
    rw [hv.nodes, hv.pbi hper]

theorem bndOk_unique {per : Bool} {ps : List Piece} {b : Bnd} {x y : Int × Int} (hx : BndOk per ps b x) (hy : BndOk per ps b y) : x = y := by
  unfold BndOk at hx hy
  by_cases hz : per = true ∧ isPeriodicId b.zone = true
  · rw [if_pos hz] at hx hy
    obtain ⟨a1, a2, C0, C1, a3, a4, a5, a6⟩ := hx
    obtain ⟨b1, b2, D0, D1, b3, b4, b5, b6⟩ := hy
    have e1 := (b2 x.1).1 ((a2 _).2 (Or.inl rfl))
    have e2 := (b2 x.2).1 ((a2 _).2 (Or.inr rfl))
    rcases e1 with e1 | e1
    · rcases e2 with e2 | e2
      · omega
      · exact Prod.ext e1 e2
    · rw [e1] at a3
      exact absurd (isCell_unique a3 b4 ▸ a5) b6
  · rw [if_neg hz] at hx hy
    have : x.1 = y.1 := (hy.2 _).1 ((hx.2 _).2 rfl)
    exact Prod.ext this (hx.1.trans hy.1.symm)

theorem small_fits {lens : List Nat} (h : Small lens) : Fits lens := by
  have := small_sum h
  have h2 : Defines.intMax 32 ≤ 9223372036854775807 := by decide
  unfold Fits
  omega

theorem touches_kept {ps : List Piece} {r : Nat} {x : Held} (hx : HeldMeans ps r x) {c : Int} (h : Touches ps r c) :
    Owns (cellLens ps) r c ∨ c ∈ x.cellMap.ghostIndex := by
  by_cases ho : Owns (cellLens ps) r c
  · exact Or.inl ho
  · exact Or.inr ((hx.ghosts c).2 ⟨ho, h⟩)

theorem node_kept {ps : List Piece} {r : Nat} {x : Held} (hx : HeldMeans ps r x) {c q : Int}
    (h : Owns (cellLens ps) r c ∨ c ∈ x.cellMap.ghostIndex) (hq : HasNode ps c q) : Owns (nodeLens ps) r q ∨ q ∈ x.nodeMap.ghostIndex := by
  by_cases ho : Owns (nodeLens ps) r q
  · exact Or.inl ho
  · exact Or.inr ((hx.nodes q).2 ⟨ho, c, h, hq⟩)

/-- the cell of a local number -/
theorem held_name {ps : List Piece} {r : Nat} {x : Held} (hx : HeldMeans ps r x) {l : Nat} (hl : l < x.cells.length) :
    ∃ c C, IsCell ps c C ∧ x.cells[l]? = some C ∧ LocalName (cellLens ps) r x.cellMap.ghostIndex c l ∧
      (Owns (cellLens ps) r c ∨ c ∈ x.cellMap.ghostIndex) := by
  have hF := hx.cellMap.faithful
  have hrange : ∀ q ∈ x.cellMap.ghostIndex, Global (cellLens ps) q := hF.loc.range
  by_cases hlt : l < x.cellMap.mainSize
  · have ho : Owns (cellLens ps) r ((before (cellLens ps) r : Int) + l) := (hF.owns_iff _).2 (by omega)
    obtain ⟨p, C, _, _, hC⟩ := owns_isCell ho
    have hn : LocalName (cellLens ps) r x.cellMap.ghostIndex ((before (cellLens ps) r : Int) + l) l := Or.inl ⟨ho, by omega⟩
    refine ⟨_, C, hC, ?_, hn, Or.inl ho⟩
    rw [List.getElem?_eq_getElem hl, hx.cells l _ _ C (List.getElem?_eq_getElem hl) hC hn]
  · have hk : l - x.cellMap.mainSize < x.cellMap.ghostIndex.length := by have := hx.size; omega
    have hm := List.getElem_mem hk
    have hno := ((hx.ghosts _).1 hm).1
    obtain ⟨C, hC⟩ := global_isCell (hrange _ hm)
    have hn : LocalName (cellLens ps) r x.cellMap.ghostIndex x.cellMap.ghostIndex[l - x.cellMap.mainSize] l :=
      Or.inr (Or.inl ⟨hno, l - x.cellMap.mainSize, List.getElem?_eq_getElem hk, _, hF.size, by omega⟩)
    refine ⟨_, C, hC, ?_, hn, Or.inr hm⟩
    rw [List.getElem?_eq_getElem hl, hx.cells l _ _ C (List.getElem?_eq_getElem hl) hC hn]

theorem unInit_eq : Faces.unInit = Part.unInit := rfl

theorem toLocal_ok {per : Bool} {ps : List Piece} (hM : MeshOk per ps) (hs : Small (nodeLens ps)) (hs' : Small (cellLens ps))
    {r : Nat} {p : Piece} {a : Adj} {x : Held} (hp : ps[r]? = some p) (hA : AdjMeans per ps r p a) (hx : HeldMeans ps r x) :
    ∃ y, toLocalPrimary p.bnds a x = .ok y ∧ PrimaryOk ps r p a x y ∧
      adjLocal2GlobalPrimary ⟨x.cellMap, x.nodeMap, x.cellMap, ⟨[], []⟩, 0, 0⟩ y =
        .ok ⟨.pointToGlobal, x.c2c, a.b2c.map (fun z => [z.1, z.2]), x.cells.map (·.nodes), p.bnds.map (·.nodes)⟩ := by
  have hu : Part.unInit < 0 := by decide
  have hmp := List.mem_of_getElem? hp
  have hP := hM.parts
  obtain ⟨gc, hgc⟩ := built_exists (cellLens ps)
  have hlen : (cellLens ps)[r]? = some p.cells.length := by rw [cellLens, List.getElem?_map, hp]; rfl
  let w : Maps := ⟨x.cellMap, x.nodeMap, x.cellMap, gc, r, p.cells.length⟩
  let s : Primary := ⟨.pointToGlobal, x.c2c, a.b2c.map (fun y => [y.1, y.2]), x.cells.map (·.nodes), p.bnds.map (·.nodes)⟩
  have hw : Setting w (cellLens ps) (nodeLens ps) (cellLens ps) (cellLens ps) :=
    ⟨hx.cellMap, hx.nodeMap, hx.cellMap, hgc, hlen, small_fits hs', small_fits hs, small_fits hs', small_fits hs'⟩
  have heq : toLocalPrimary p.bnds a x = adjGlobal2LocalPrimary w s := rfl
  -- entries
  have hrow : ∀ row ∈ x.c2c, ∀ c ∈ row, Global (cellLens ps) c := by
    intro row hrow c hc
    obtain ⟨l, hl⟩ := List.mem_iff_getElem?.1 hrow
    have hl' : l < x.cells.length := by rw [← hx.c2cSize]; exact (List.getElem?_eq_some_iff.1 hl).1
    obtain ⟨i, C, h1, _, h3, _⟩ := held_name hx hl'
    obtain ⟨_, q, _, D, hD, _⟩ := ((hx.c2c l i row hl h1.1 h3).2 c).1 hc
    exact isCell_global hD
  have hcell : ∀ C ∈ x.cells, ∃ c, IsCell ps c C ∧ (Owns (cellLens ps) r c ∨ c ∈ x.cellMap.ghostIndex) := by
    intro C hC
    obtain ⟨l, hl⟩ := List.mem_iff_getElem?.1 hC
    obtain ⟨i, D, h1, h2, _, h4⟩ := held_name hx (List.getElem?_eq_some_iff.1 hl).1
    have : C = D := Option.some.inj (hl.symm.trans h2)
    exact ⟨i, this ▸ h1, h4⟩
  have hbnd : ∀ z ∈ a.b2c, ∃ b ∈ p.bnds, BndOk per ps b z ∧ Touches ps r z.1 := by
    intro z hz
    obtain ⟨k, hk⟩ := List.mem_iff_getElem?.1 hz
    have hk' : k < p.bnds.length := by rw [← hA.bnds]; exact (List.getElem?_eq_some_iff.1 hk).1
    have hb := hA.bnd k _ z (List.getElem?_eq_getElem hk') hk
    obtain ⟨z', h1, h2⟩ := hM.home r p _ hp (List.getElem_mem hk')
    rw [bndOk_unique h1 hb] at h2
    exact ⟨_, List.getElem_mem hk', hb, h2⟩
  have hcov : ∀ b ∈ p.bnds, ∀ c, Covers ps c b → Global (cellLens ps) c := by
    intro b hb c hc
    obtain ⟨q, hq⟩ := List.exists_mem_of_ne_nil _ (hM.bnds p hmp b hb).1
    obtain ⟨C, hC, _⟩ := hc q hq
    exact isCell_global hC
  have hb2c : ∀ z ∈ a.b2c, Global (cellLens ps) z.1 ∧ (z.2 = Part.unInit ∨ Global (cellLens ps) z.2) := by
    intro z hz
    obtain ⟨b, hb, hB, -⟩ := hbnd z hz
    unfold BndOk at hB
    by_cases hz : per = true ∧ isPeriodicId b.zone = true
    · rw [if_pos hz] at hB
      exact ⟨hcov b hb _ ((hB.2.1 _).2 (Or.inl rfl)), Or.inr (hcov b hb _ ((hB.2.1 _).2 (Or.inr rfl)))⟩
    · rw [if_neg hz] at hB
      exact ⟨hcov b hb _ ((hB.2 _).2 rfl), Or.inl hB.1⟩
  have hcov1 : ∀ b ∈ p.bnds, ∃ c, Covers ps c b ∧ Touches ps r c := by
    intro b hb
    obtain ⟨z, h1, h2⟩ := hM.home r p b hp hb
    refine ⟨z.1, ?_, h2⟩
    unfold BndOk at h1
    by_cases hz : per = true ∧ isPeriodicId b.zone = true
    · rw [if_pos hz] at h1; exact (h1.2.1 _).2 (Or.inl rfl)
    · rw [if_neg hz] at h1; exact (h1.2 _).2 rfl
  have hv : s.Valid (cellLens ps) (nodeLens ps) := by
    refine ⟨?_, ?_, ?_, ?_⟩
    · intro row hr c hc; exact Or.inr (hrow row hr c hc)
    · intro row hr c hc
      obtain ⟨z, hz, rfl⟩ := List.mem_map.1 hr
      obtain ⟨h1, h2⟩ := hb2c z hz
      simp only [List.mem_cons, List.not_mem_nil, or_false] at hc
      rcases hc with rfl | rfl
      · exact Or.inr h1
      · exact h2
    · intro row hr q hq
      obtain ⟨C, hC, rfl⟩ := List.mem_map.1 hr
      obtain ⟨c, h1, _⟩ := hcell C hC
      obtain ⟨p', hp', hC'⟩ := isCell_mem h1
      exact Or.inr ((hP.cells p' hp' C hC').2 q hq)
    · intro row hr q hq
      obtain ⟨b, hb, rfl⟩ := List.mem_map.1 hr
      exact Or.inr ((hM.bnds p hmp b hb).2 q hq)
  obtain ⟨t1, t2, -⟩ := primary_to_local hw s hv
  have hpres : EachEntry (Present (nodeLens ps) r x.nodeMap.ghostIndex) s.cell2node ∧
      EachEntry (Present (nodeLens ps) r x.nodeMap.ghostIndex) s.bnd2node := by
    constructor
    · intro row hr q hq
      obtain ⟨C, hC, rfl⟩ := List.mem_map.1 hr
      obtain ⟨c, h1, h2⟩ := hcell C hC
      refine ⟨?_, node_kept hx h2 ⟨C, h1, hq⟩⟩
      obtain ⟨p', hp', hC'⟩ := isCell_mem h1
      have := ((hP.cells p' hp' C hC').2 q hq).1
      omega
    · intro row hr q hq
      obtain ⟨b, hb, rfl⟩ := List.mem_map.1 hr
      obtain ⟨c, h1, h2⟩ := hcov1 b hb
      refine ⟨?_, node_kept hx (touches_kept hx h2) (h1 q hq)⟩
      have := ((hM.bnds p hmp b hb).2 q hq).1
      omega
  obtain ⟨y, hy⟩ := t2.2 ⟨rfl, hpres.1, hpres.2, by
    intro row hr c hc
    obtain ⟨z, hz, rfl⟩ := List.mem_map.1 hr
    cases Option.some.inj hc
    obtain ⟨b, hb, _, ht⟩ := hbnd z hz
    refine ⟨?_, touches_kept hx ht⟩
    have := (hb2c z hz).1.1
    omega⟩
  obtain ⟨_, r1, r2, r3, r4⟩ := t1 y hy
  have hnn : ∀ rows rows', EachEntry (Present (nodeLens ps) r x.nodeMap.ghostIndex) rows → EachEntry (Entry (nodeLens ps)) rows →
      RowsRel (EntryName (nodeLens ps) r x.nodeMap.ghostIndex) rows rows' →
      RowsRel (fun q v => 0 ≤ v ∧ LocalName (nodeLens ps) r x.nodeMap.ghostIndex q v) rows rows' := by
    rintro rows rows' h1 h2 ⟨h3, h4⟩
    refine ⟨h3, ?_⟩
    intro i u v hu' hv'
    obtain ⟨h5, h6⟩ := h4 i u v hu' hv'
    refine ⟨h5, ?_⟩
    intro j q z hq hz
    have hm := List.mem_of_getElem? hu'
    have hq' := List.mem_of_getElem? hq
    have h7 := h6 j q z hq hz
    have h8 := h1 u hm q hq'
    refine ⟨(name_present (m := x.nodeMap) h7 (entry_sign (h2 u hm q hq'))).2 h8, ?_⟩
    rcases h7 with ⟨e, _⟩ | ⟨_, e⟩
    · exact absurd e h8.1
    · exact e
  refine ⟨y, heq.trans hy, ⟨r1, r2, hnn _ _ hpres.1 hv.cell2node r3, hnn _ _ hpres.2 hv.bnd2node r4, ?_⟩,
    primary_restored hw s y hv hy⟩
  intro row hr v hv'
  obtain ⟨k, hk⟩ := List.mem_iff_getElem?.1 hr
  have hk' : k < s.bnd2cell.length := by rw [r2.1]; exact (List.getElem?_eq_some_iff.1 hk).1
  obtain ⟨h5, h6⟩ := r2.2 k _ row (List.getElem?_eq_getElem hk') hk
  have hmem := List.getElem_mem hk'
  obtain ⟨z, hz, hze⟩ := List.mem_map.1 hmem
  have h0 : (s.bnd2cell[k])[0]? = some z.1 := by rw [← hze]; rfl
  have h7 := h6 0 z.1 v h0 hv'
  obtain ⟨b, hb, _, ht⟩ := hbnd z hz
  have hg := (hb2c z hz).1.1
  exact (name_present (m := x.cellMap) h7 (Or.inl hg)).2 ⟨by omega, touches_kept hx ht⟩

theorem toRankIn_holds {ps : List Piece} {r : Nat} {p : Piece} {a : Adj} {x : Held} {y : Primary} (hx : HeldMeans ps r x)
    (hy : PrimaryOk ps r p a x y) : Holds (cellLens ps) (nodeLens ps) (whole ps) r (toRankIn x y) := by
  obtain ⟨hl, hrows⟩ := hy.c2n
  rw [List.length_map] at hl
  refine ⟨hx.cellMap, hx.nodeMap, fun q hq => ((hx.ghosts q).1 hq).1, ?_, ?_⟩
  · simp only [toRankIn, List.length_map, List.length_zip]
    have := hx.size
    omega
  · intro l i c C hc hC hn
    simp only [toRankIn, List.getElem?_map] at hc hn ⊢
    obtain ⟨⟨d, row⟩, hz, rfl⟩ := Option.map_eq_some_iff.1 hc
    obtain ⟨h1, h2⟩ := List.getElem?_zip_eq_some.1 hz
    simp only at h1 h2 ⊢
    have hd : d = C := hx.cells l i d C h1 ⟨by omega, by simpa using hC⟩ hn
    subst hd
    obtain ⟨h3, h4⟩ := hrows l d.nodes row (by rw [List.getElem?_map, h1]; rfl) h2
    exact ⟨rfl, rfl, h3.symm, fun p q v hq hv => h4 p q v hq hv⟩

theorem corner_of_slot {per : Bool} {ps : List Piece} (hM : MeshOk per ps) {i j : Nat} {a : Slot} (h : IsSlot per (whole ps) i j a) :
    corners a ≠ [] ∧ ∀ q ∈ corners a, HasNode ps i q := by
  obtain ⟨c, hc, hj, rfl⟩ := h
  have hv := (hM.valid c (List.mem_of_getElem? hc)).1
  have hg := slot_good hv hj
  refine ⟨?_, ?_⟩
  · intro hn
    have := congrArg List.length hn
    rw [corners, List.length_take, List.length_nil] at this
    have h1 := hg.len; have h2 := hg.le; have h3 := hg.verts
    omega
  · intro q hq
    have hq' := List.mem_of_mem_take hq
    simp only [slot, List.mem_map] at hq'
    obtain ⟨k, hk, rfl⟩ := hq'
    have hk' : k < c.nodes.length := by
      rw [hv.nodes]
      exact (good_table c.type hv.known j (List.mem_range.2 hj)).2.2.2 k hk
    refine ⟨c, ⟨by omega, by simpa using hc⟩, ?_⟩
    rw [List.getElem?_eq_getElem hk']
    exact List.getElem_mem hk'

theorem distributed {per : Bool} {ps : List Piece} (hM : MeshOk per ps) {gc : GOM} (hgc : Built (cellLens ps) gc)
    {adj : List Adj} (hal : adj.length = ps.length) {held : List Held} (hhl : held.length = ps.length)
    (hheld : ∀ (r : Nat) (x : Held), held[r]? = some x → HeldMeans ps r x) {prim : List Primary} (hpl : prim.length = ps.length)
    (hprim : ∀ (r : Nat) (p : Piece) (a : Adj) (x : Held) (y : Primary), ps[r]? = some p → adj[r]? = some a → held[r]? = some x → prim[r]? = some y →
      PrimaryOk ps r p a x y) :
    Distributed per (cellLens ps) (nodeLens ps) (whole ps) gc ((held.zip prim).map (fun x => toRankIn x.1 x.2)) := by
  have hat : ∀ (r : Nat) (z : RankIn), ((held.zip prim).map (fun x => toRankIn x.1 x.2))[r]? = some z → ∃ x y, held[r]? = some x ∧
      prim[r]? = some y ∧ z = toRankIn x y ∧ HeldMeans ps r x ∧ ∃ p a, PrimaryOk ps r p a x y := by
    intro r z hz
    rw [List.getElem?_map] at hz
    obtain ⟨⟨x, y⟩, h1, rfl⟩ := Option.map_eq_some_iff.1 hz
    obtain ⟨h2, h3⟩ := List.getElem?_zip_eq_some.1 h1
    simp only at h2 h3
    have hr : r < ps.length := by rw [← hhl]; exact (List.getElem?_eq_some_iff.1 h2).1
    exact ⟨x, y, h2, h3, rfl, hheld r x h2, _, _, hprim r _ _ x y (List.getElem?_eq_getElem hr) (List.getElem?_eq_getElem (by omega)) h2 h3⟩
  refine ⟨hgc, ?_, whole_length ps, hM.valid, hM.conforming, hM.two, ?_, ?_⟩
  · simp only [List.length_map, List.length_zip, cellLens]; omega
  · intro r z hz
    obtain ⟨x, y, _, _, rfl, hx, p, a, hy⟩ := hat r z hz
    exact toRankIn_holds hx hy
  · intro r z i j i' j' a b hz ha hb hsame ho hno
    obtain ⟨x, y, _, _, rfl, hx, -⟩ := hat r z hz
    obtain ⟨hne, h1⟩ := corner_of_slot hM ha
    obtain ⟨_, h2⟩ := corner_of_slot hM hb
    obtain ⟨q, hq⟩ := List.exists_mem_of_ne_nil _ hne
    exact (hx.ghosts i').2 ⟨hno, i, q, ho, h1 q hq, h2 q (hsame.2.1.mem_iff.1 hq)⟩

/-! ### `node2cell` read row by row -/

theorem readRow_rep {a : Arr.Array Int} {rows : List (List Int)} {w : Nat} (h : Arr.Represents tyAdj a ⟨rows, w⟩) {i : Nat} {row : List Int}
    (hi : rows[i]? = some row) : readRow a i = .ok row := by
  obtain ⟨hlt, he⟩ := List.getElem?_eq_some_iff.1 hi
  have h1 := h.rowSize i hlt
  simp only [he] at h1
  rw [readRow, h1, Res.ok_bind, forRanks_ok]
  refine ⟨by simp, ?_⟩
  intro j x hj
  have hj' : j < row.length := by simpa using (List.getElem?_eq_some_iff.1 hj).1
  refine ⟨row[j], List.getElem?_eq_getElem hj', ?_⟩
  have h2 := h.read i j
  rw [Arr.lookup, if_pos (by omega), show ((i : Nat) : Int).toNat = i by omega, show ((j : Nat) : Int).toNat = j by omega, hi] at h2
  simp only [Option.bind_some, List.getElem?_eq_getElem hj'] at h2
  rw [Nat.zero_add]
  exact h2

theorem readAll_rep {a : Arr.Array Int} {rows : List (List Int)} {w : Nat} (h : Arr.Represents tyAdj a ⟨rows, w⟩) : readAll a = .ok rows := by
  rw [readAll, forRanks_ok]
  have hsz : a.size = rows.length := h.size
  refine ⟨by rw [List.length_replicate, hsz], ?_⟩
  intro i x hi
  have hi' : i < rows.length := by
    have := (List.getElem?_eq_some_iff.1 hi).1
    rw [List.length_replicate] at this; omega
  refine ⟨rows[i], List.getElem?_eq_getElem hi', ?_⟩
  have := readRow_rep h (List.getElem?_eq_getElem hi')
  rw [Nat.zero_add]; exact this

theorem refers_iff (ps : List Piece) (c q : Int) : Refers (ps.map (fun p => p.cells.map (·.nodes))) c q ↔ HasNode ps c q := by
  have hl : (ps.map (fun p => p.cells.map (·.nodes))).map List.length = cellLens ps := by
    rw [cellLens, List.map_map]
    refine List.map_congr_left fun p _ => ?_
    simp
  constructor
  · rintro ⟨s, k, row, ⟨rows, h1, h2⟩, h3, h4⟩
    rw [List.getElem?_map] at h1
    obtain ⟨p, hp, rfl⟩ := Option.map_eq_some_iff.1 h1
    rw [List.getElem?_map] at h2
    obtain ⟨C, hC, rfl⟩ := Option.map_eq_some_iff.1 h2
    rw [hl] at h3
    exact ⟨C, h3 ▸ isCell_own hp hC, h4⟩
  · rintro ⟨C, hC, hq⟩
    have hg := isCell_global hC
    obtain ⟨s, hs⟩ := owns_exists hg.1 hg.2
    obtain ⟨p, D, h1, h2, h3⟩ := owns_isCell hs
    rw [isCell_unique hC h3] at hq
    refine ⟨s, (c - before (cellLens ps) s).toNat, D.nodes, ⟨p.cells.map (·.nodes), by rw [List.getElem?_map, h1]; rfl,
      by rw [List.getElem?_map, h2]; rfl⟩, ?_, hq⟩
    rw [hl]
    obtain ⟨_, x, _⟩ := hs
    omega

end DNDSR.Ghost
