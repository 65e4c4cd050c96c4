import Verif.Proof.ReorderNumber

/-!
# The whole renumbering
-/

namespace DNDSR.Reorder

open DNDSR.IMap DNDSR.MeshAdj DNDSR.Faces DNDSR.Ghost DNDSR.Elem

/-- cells and neighbours pulled for the ghosts -/
theorem heldMeans_of {ps : List Piece} {rows : List (List (List Int))} (hlen : rows.map List.length = cellLens ps)
    (hrow : ∀ (i : Int) (row : List Int), 0 ≤ i → rows.flatten[i.toNat]? = some row →
      row.Nodup ∧ ∀ c, c ∈ row ↔ c ≠ i ∧ ∃ q, HasNode ps i q ∧ HasNode ps c q)
    {r : Nat} {p : Piece} (hp : ps[r]? = some p) {own : List (List Int)} (ho : rows[r]? = some own) {m n : Map}
    (hm : Collective (cellLens ps) r m) (hn : Collective (nodeLens ps) r n)
    (hghost : ∀ c, c ∈ m.ghostIndex ↔ ¬ Owns (cellLens ps) r c ∧ Touches ps r c)
    (hnodes : ∀ q, q ∈ n.ghostIndex ↔ ¬ Owns (nodeLens ps) r q ∧ ∃ c, (Owns (cellLens ps) r c ∨ c ∈ m.ghostIndex) ∧ HasNode ps c q)
    {son : List Cell} {son2 : List (List Int)} (hl : son.length = m.ghostIndex.length)
    (hs : ∀ (k : Nat) (q : Int), m.ghostIndex[k]? = some q → son[k]? = (whole ps)[q.toNat]?) (hl2 : son2.length = m.ghostIndex.length)
    (hs2 : ∀ (k : Nat) (q : Int), m.ghostIndex[k]? = some q → son2[k]? = rows.flatten[q.toNat]?) :
    HeldMeans ps r ⟨p.cells ++ son, own ++ son2, m, n⟩ := by
  have hF := hm.faithful
  have hpl := mainSize_eq hp hF
  have hol : own.length = p.cells.length := by
    have := congrArg (·[r]?) hlen
    simp only [List.getElem?_map, ho, lens_of hp, Option.map_some] at this
    exact Option.some.inj this
  refine ⟨hm, hn, hghost, hnodes, ?_, ?_, ?_, ?_⟩
  · simp only [List.length_append]; omega
  · intro l i c C hc hC hln
    have := held_row (rows := ps.map (fun x : Piece => x.cells)) (own := p.cells) (son := son) (m := m) (r := r)
      (by rw [cellLens_eq]; exact hF) (by rw [List.getElem?_map, hp]; rfl) hl hs hC.1 (v := (l : Int)) (by omega) (by rw [cellLens_eq]; exact hln)
    rw [show ((l : Nat) : Int).toNat = l by omega, hc] at this
    exact Option.some.inj (this.trans hC.2)
  · simp only [List.length_append]; omega
  · intro l i row hrow' hi hln
    have := held_row (rows := rows) (own := own) (son := son2) (m := m) (r := r)
      (by rw [hlen]; exact hF) ho hl2 hs2 hi (v := (l : Int)) (by omega) (by rw [hlen]; exact hln)
    rw [show ((l : Nat) : Int).toNat = l by omega, hrow'] at this
    exact hrow i row hi this.symm

/-- what a rank has, with its global form -/
structure Has (per : Bool) (ps : List Piece) (r : Nat) (p : Piece) (s : St) (a : Adj) (x : Held) : Prop where
  piece : ps[r]? = some p
  adj : AdjMeans per ps r p a
  held : HeldMeans ps r x
  prim : PrimaryOk ps r p a x s.prim
  info : s.info = x.cells.map (fun C => (C.type, C.pbi))
  cmap : s.cellMap = x.cellMap
  nmap : s.nodeMap = x.nodeMap
  state : s.prim.state = .pointToLocal
  nCell : s.nCell = p.cells.length
  back : adjLocal2GlobalPrimary (mapsOf s.cellMap s.nodeMap) s.prim =
    .ok ⟨.pointToGlobal, x.c2c, a.b2c.map (fun z => [z.1, z.2]), x.cells.map (·.nodes), p.bnds.map (·.nodes)⟩

theorem has_of {per : Bool} {ps : List Piece} (hM : MeshOk per ps) (hs : Small (nodeLens ps)) (hs' : Small (cellLens ps)) {r : Nat} {p : Piece} {s : St}
    (hp : ps[r]? = some p) (h : RankOk per ps r p s) : ∃ a x, Has per ps r p s a x := by
  obtain ⟨⟨a, x, h1, h2, h3, h4, h5, h6⟩, h7⟩ := h
  obtain ⟨y, e1, e2, e3⟩ := toLocal_ok hM hs hs' hp h1 h2
  have hst : y.state = .pointToLocal := by
    rw [adjLocal2GlobalPrimary, Res.bind_ok_iff] at e3
    obtain ⟨_, h8, _⟩ := e3
    exact (Res.assert_ok_iff _ _).1 h8
  have := primary_unique h2 h3 e2 (h7.trans hst.symm)
  subst this
  refine ⟨a, x, hp, h1, h2, h3, h4, h5, h6, h7, ?_, ?_⟩
  · rw [St.nCell, h5, mainSize_eq hp h2.cellMap.faithful]
  · rw [h5, h6]; exact e3

section
variable {per : Bool} {ps : List Piece} {r : Nat} {p : Piece} {s : St} {a : Adj} {x : Held}

theorem Has.c2c_entry (h : Has per ps r p s a x) : ∀ row ∈ x.c2c.take p.cells.length, ∀ c ∈ row, Global (cellLens ps) c := by
  intro row hr c hc
  obtain ⟨k, hk⟩ := List.mem_iff_getElem?.1 (List.mem_of_mem_take hr)
  obtain ⟨i, C, h1, _, h3, _⟩ := held_name h.held (l := k) (by rw [← h.held.c2cSize]; exact some_lt hk)
  obtain ⟨_, q, _, h4⟩ := ((h.held.c2c k i row hk h1.1 h3).2 c).1 hc
  exact hasNode_global h4

theorem Has.bnd_entry (h : Has per ps r p s a x) (hM : MeshOk per ps) : ∀ z ∈ a.b2c, Global (cellLens ps) z.1 ∧ (z.2 = Faces.unInit ∨ Global (cellLens ps) z.2) := by
  intro z hz
  obtain ⟨k, hk⟩ := List.mem_iff_getElem?.1 hz
  obtain ⟨b, hb⟩ := at_some (l := p.bnds) (r := k) (by rw [← h.adj.bnds]; exact some_lt hk)
  exact bndOk_global (hM.bnds p (List.mem_of_getElem? h.piece) b (List.mem_of_getElem? hb)).1 (h.adj.bnd k b z hb hk)

theorem Has.ghost_entry (h : Has per ps r p s a x) : ∀ c ∈ x.cellMap.ghostIndex, Global (cellLens ps) c :=
  h.held.cellMap.faithful.loc.range

/-- row `k` of the neighbours of the rank's own cells -/
theorem Has.own_c2c (h : Has per ps r p s a x) {k : Nat} (hk : k < p.cells.length) : ∃ row, (x.c2c.take p.cells.length)[k]? = some row ∧ row.Nodup ∧
    ∀ c, c ∈ row ↔ c ≠ (before (cellLens ps) r : Int) + k ∧ ∃ q, HasNode ps ((before (cellLens ps) r : Int) + k) q ∧ HasNode ps c q := by
  have hl : k < x.c2c.length := by
    rw [h.held.c2cSize, h.held.size, mainSize_eq h.piece h.held.cellMap.faithful]; omega
  refine ⟨x.c2c[k], by rw [List.getElem?_take_of_lt hk]; exact List.getElem?_eq_getElem hl, ?_⟩
  exact h.held.c2c k _ _ (List.getElem?_eq_getElem hl) (by omega) (Or.inl ⟨owns_of_index h.piece hk, by omega⟩)

theorem Has.own_len (h : Has per ps r p s a x) : (x.c2c.take p.cells.length).length = p.cells.length := by
  rw [List.length_take, h.held.c2cSize, h.held.size, mainSize_eq h.piece h.held.cellMap.faithful]; omega

end

/-- the adjacency of a rank under the new numbers -/
def adjOf (π : Int → Int) (a : Adj) (rows : List (List Int)) : Adj := ⟨rows, a.b2c.map (fun z => (rename π z.1, rename π z.2))⟩

theorem Numbering.adjMeans {per : Bool} {ps : List Piece} {g : GOM} {orders : List RCM.Order} {o2n : List (List Int)} {css : List (List Cell)}
    (h : Numbering ps g orders o2n css) (hg : Built (cellLens ps) g) (hM : MeshOk per ps) {r : Nat} {p : Piece} {s : St} {a : Adj} {x : Held}
    (hh : Has per ps r p s a x) {t : List Int} {cs : List Cell} (ht : o2n[r]? = some t) (hc : css[r]? = some cs) {rows : List (List Int)}
    (hpl : place g r t ((x.c2c.take p.cells.length).map (·.map (rename (newOf o2n)))) ((x.c2c.take p.cells.length).map (·.map (rename (newOf o2n)))) = .ok rows) :
    AdjMeans per (piecesOf ps css) r { p with cells := cs } (adjOf (newOf o2n) a rows) := by
  have hR := h.renumbered hg
  obtain ⟨o, _, _, ho, _, _, _⟩ := h.at_ hh.piece
  obtain ⟨l1, h1⟩ := h.moved hg hh.piece ho ht (rows := (x.c2c.take p.cells.length).map (·.map (rename (newOf o2n))))
    (by rw [List.length_map]; exact hh.own_len) hpl
  have hcl := (h.moved hg hh.piece ho ht rfl (h.cells r p t cs hh.piece ht hc)).1
  have hinv := (h.inverse r p o hh.piece ho).2.2
  have hrow : ∀ (l : Nat) (row : List Int), rows[l]? = some row → row.Nodup ∧ ∀ c, c ∈ row ↔ c ≠ (before (cellLens ps) r : Int) + l ∧
      ∃ q, HasNode (piecesOf ps css) ((before (cellLens ps) r : Int) + l) q ∧ HasNode (piecesOf ps css) c q := by
    intro l row hl
    have hl' : l < p.cells.length := by rw [← l1]; exact some_lt hl
    obtain ⟨i0, i1, i2⟩ := (hinv l (by omega) (by omega)).1
    obtain ⟨k, hk⟩ := Int.eq_ofNat_of_zero_le i0
    rw [hk] at i1 i2
    have hk' : k < p.cells.length := by omega
    have e := h1 k hk'
    rw [i2, Int.toNat_natCast, hl, List.getElem?_map] at e
    obtain ⟨row0, r1, r2, r3⟩ := hh.own_c2c hk'
    rw [r1, Option.map_some] at e
    have hn := h.number hh.piece ho hk'
    rw [i2] at hn
    have := hR.row (owns_range (owns_of_index hh.piece hk')) r2 r3
    rw [hn] at this
    rw [Option.some.inj e]
    exact this
  refine ⟨?_, ?_, ?_, ?_, ?_⟩
  · exact l1.trans hcl.symm
  · intro row hm
    obtain ⟨l, hl⟩ := List.mem_iff_getElem?.1 hm
    exact (hrow l row hl).1
  · intro l row hl
    rw [hR.cellLens]
    exact (hrow l row hl).2
  · simp only [adjOf, List.length_map]; exact hh.adj.bnds
  · intro k b z hb hz
    simp only [adjOf, List.getElem?_map] at hz
    obtain ⟨z0, hz0, rfl⟩ := Option.map_eq_some_iff.1 hz
    exact hR.bndOk (hM.bnds p (List.mem_of_getElem? hh.piece) b (List.mem_of_getElem? hb)).1 (hh.adj.bnd k b z0 hb hz0)

theorem foldl_max_le : ∀ (l : List Int) (m : Int), m ≤ l.foldl max m ∧ ∀ x ∈ l, x ≤ l.foldl max m
  | [], m => ⟨by simp, by simp⟩
  | y :: l, m => by
      obtain ⟨h1, h2⟩ := foldl_max_le l (max m y)
      rw [List.foldl_cons]
      refine ⟨by omega, fun x hx => ?_⟩
      rcases List.mem_cons.1 hx with rfl | hx
      · omega
      · exact h2 x hx

theorem foldl_max_mem : ∀ (l : List Int) (m : Int), l.foldl max m = m ∨ l.foldl max m ∈ l
  | [], m => Or.inl rfl
  | y :: l, m => by
      rw [List.foldl_cons]
      rcases foldl_max_mem l (max m y) with h | h
      · by_cases hm : m ≤ y
        · right; rw [h, Int.max_eq_right hm]; exact List.mem_cons_self ..
        · left; rw [h, Int.max_eq_left (by omega)]
      · right; exact List.mem_cons_of_mem _ h

theorem band_unique {g : RCM.Graph} {f : Int → Int} {b c : Int} (hb : RCM.BandWidth g f b) (hc : RCM.BandWidth g f c) : b ≤ c := by
  have h0 : 0 ≤ c := by
    rcases hc.2 with h | ⟨i, _, j, _, h⟩
    · omega
    · rw [h]; exact abs_nonneg _
  rcases hb.2 with h | ⟨i, hi, j, hj, h⟩
  · omega
  · rw [h]; exact hc.1 i hi j hj

set_option maxHeartbeats 1600000 in
/-- the ranks under the new numbers, from the new numbers on -/
theorem reorder_rest {per : Bool} {ps : List Piece} (hM : MeshOk per ps) (hs : Small (nodeLens ps)) (hs' : Small (cellLens ps)) {ss : List St} {adj : List Adj}
    {held : List Held} (hsl : ss.length = ps.length) (hal : adj.length = ps.length) (hhl : held.length = ps.length)
    (hhas : ∀ (r : Nat) (p : Piece) (s : St) (a : Adj) (x : Held), ps[r]? = some p → ss[r]? = some s → adj[r]? = some a → held[r]? = some x → Has per ps r p s a x)
    {gc : GOM} (hg : Built (cellLens ps) gc) {orders : List RCM.Order} {o2n : List (List Int)} {css : List (List Cell)} (hN : Numbering ps gc orders o2n css) :
    ∃ out, moveCells gc (cellLens ps) o2n ss = Res.ok out ∧
      RanksOk per (piecesOf ps css) out ∧ ∀ (r : Nat) (s s' : St), ss[r]? = some s → out[r]? = some s' → s'.nodeMap = s.nodeMap := by
  unfold moveCells
  have hR := hN.renumbered hg
  have hcl : (cellLens ps).length = ps.length := by simp [cellLens]
  have ho2l : o2n.length = ps.length := by have := congrArg List.length hN.lens; simpa [cellLens] using this
  -- the data of a rank
  have hat : ∀ r, r < ps.length → ∃ p s a x, ps[r]? = some p ∧ ss[r]? = some s ∧ adj[r]? = some a ∧ held[r]? = some x ∧ Has per ps r p s a x := by
    intro r hr
    obtain ⟨p, hp⟩ := at_some hr
    obtain ⟨s, hs⟩ := at_some (l := ss) (r := r) (by omega)
    obtain ⟨a, ha⟩ := at_some (l := adj) (r := r) (by omega)
    obtain ⟨x, hx⟩ := at_some (l := held) (r := r) (by omega)
    exact ⟨p, s, a, x, hp, hs, ha, hx, hhas r p s a x hp hs ha hx⟩
  -- global numbers
  obtain ⟨glob, e1, l1, P1⟩ := N2C.forRanks_all (fun _ (s : St) => adjLocal2GlobalPrimary (mapsOf s.cellMap s.nodeMap) s.prim)
    (fun r _ y => ∀ p a x, ps[r]? = some p → adj[r]? = some a → held[r]? = some x →
      y = ⟨.pointToGlobal, x.c2c, a.b2c.map (fun z => [z.1, z.2]), x.cells.map (·.nodes), p.bnds.map (·.nodes)⟩) ss (by
      intro r s hs
      obtain ⟨p, s', a, x, hp, hs', ha, hx, H⟩ := hat r (by rw [← hsl]; exact some_lt hs)
      rw [hs] at hs'
      cases hs'
      refine ⟨_, H.back, fun p' a' x' hp' ha' hx' => ?_⟩
      rw [hp] at hp'; rw [ha] at ha'; rw [hx] at hx'
      cases hp'; cases ha'; cases hx'
      rfl)
  rw [hsl] at l1
  rw [e1, Res.ok_bind]
  -- the new numbers asked for
  obtain ⟨want, e2, l2, P2⟩ := N2C.forRanks_all (fun r (x : St × Primary) => do
      let a ← record gc r (x.2.cell2cell.take x.1.nCell).flatten
      let b ← record gc r x.2.bnd2cell.flatten
      .ok (a ++ b ++ x.1.cellMap.ghostIndex))
    (fun r _ w => ∀ p a x, ps[r]? = some p → adj[r]? = some a → held[r]? = some x →
      (∀ c ∈ w, Global (cellLens ps) c) ∧
      (∀ c, Global (cellLens ps) c → (c ∈ (x.c2c.take p.cells.length).flatten ∨ (∃ z ∈ a.b2c, c = z.1 ∨ c = z.2) ∨ c ∈ x.cellMap.ghostIndex) →
        Owns (cellLens ps) r c ∨ c ∈ w)) (ss.zip glob) (by
      intro r z hz
      obtain ⟨s, y⟩ := z
      obtain ⟨hs, hy⟩ := List.getElem?_zip_eq_some.1 hz
      obtain ⟨p, s', a, x, hp, hs', ha, hx, H⟩ := hat r (by rw [← hsl]; exact some_lt hs)
      simp only at hs hy
      rw [hs] at hs'
      cases hs'
      rw [P1 r s y hs hy p a x hp ha hx]
      simp only [H.nCell, H.cmap]
      obtain ⟨t1, b1, m1⟩ := record_spec hg r (x.c2c.take p.cells.length).flatten (by
        intro c hc
        obtain ⟨row, h1, h2⟩ := List.mem_flatten.1 hc
        exact Or.inr (H.c2c_entry row h1 c h2))
      have hb : ∀ c, c ∈ (a.b2c.map (fun z => [z.1, z.2])).flatten ↔ ∃ z ∈ a.b2c, c = z.1 ∨ c = z.2 := by
        intro c
        rw [List.mem_flatten]
        constructor
        · rintro ⟨l, h1, h2⟩
          obtain ⟨z, hz, rfl⟩ := List.mem_map.1 h1
          exact ⟨z, hz, by simpa using h2⟩
        · rintro ⟨z, hz, h⟩
          exact ⟨_, List.mem_map.2 ⟨z, hz, rfl⟩, by simpa using h⟩
      obtain ⟨t2, b2, m2⟩ := record_spec hg r (a.b2c.map (fun z => [z.1, z.2])).flatten (by
        intro c hc
        obtain ⟨z, hz, h⟩ := (hb c).1 hc
        obtain ⟨h1, h2⟩ := H.bnd_entry hM z hz
        rcases h with rfl | rfl
        · exact Or.inr h1
        · exact h2)
      refine ⟨t1 ++ t2 ++ x.cellMap.ghostIndex, by simp only [b1, b2, Res.ok_bind], fun p' a' x' hp' ha' hx' => ?_⟩
      rw [hp] at hp'; rw [ha] at ha'; rw [hx] at hx'
      cases hp'; cases ha'; cases hx'
      constructor
      · intro c hc
        simp only [List.mem_append, or_assoc] at hc
        rcases hc with hc | hc | hc
        · exact ((m1 c).1 hc).2.1
        · exact ((m2 c).1 hc).2.1
        · exact H.ghost_entry c hc
      · intro c hcg hc
        by_cases ho : Owns (cellLens ps) r c
        · exact Or.inl ho
        · right
          simp only [List.mem_append, or_assoc]
          rcases hc with hc | hc | hc
          · exact Or.inl ((m1 c).2 ⟨hc, hcg, ho⟩)
          · exact Or.inr (Or.inl ((m2 c).2 ⟨(hb c).2 hc, hcg, ho⟩))
          · exact Or.inr (Or.inr hc))
  rw [List.length_zip, l1, hsl, Nat.min_self] at l2
  rw [e2, Res.ok_bind]
  have hsg : ∀ r, r < ps.length → ∃ s y, ss[r]? = some s ∧ glob[r]? = some y ∧ (ss.zip glob)[r]? = some (s, y) := by
    intro r hr
    obtain ⟨s, hs⟩ := at_some (l := ss) (r := r) (by omega)
    obtain ⟨y, hy⟩ := at_some (l := glob) (r := r) (by omega)
    exact ⟨s, y, hs, hy, List.getElem?_zip_eq_some.2 ⟨hs, hy⟩⟩
  obtain ⟨maps, hcm⟩ := pull_small hg hs' want (by omega) (by
    intro w hw q hq
    obtain ⟨r, hr⟩ := List.mem_iff_getElem?.1 hw
    have hr' : r < ps.length := by rw [← l2]; exact some_lt hr
    obtain ⟨p, s, a, x, hp, hs, ha, hx, H⟩ := hat r hr'
    obtain ⟨s, y, _, _, hz⟩ := hsg r hr'
    exact (P2 r _ w hz hr p a x hp ha hx).1 q hq)
  obtain ⟨l3, S3⟩ := createPull_spec hg want (by omega) maps hcm
  rw [hcl] at l3
  rw [hcm, Res.ok_bind]
  -- their tables
  have hbo : Built (o2n.map List.length) gc := by rw [hN.lens]; exact hg
  obtain ⟨tabs, e4, l4, P4⟩ := N2C.forRanks_all (fun _ (x : Map × List Int) => do
      let son ← forRanks (fun _ q => fetch gc o2n q) 0 x.1.ghostIndex
      .ok (x.2 ++ son))
    (fun r x tab => ∃ son, tab = x.2 ++ son ∧ son.length = x.1.ghostIndex.length ∧
      ∀ (k : Nat) (q : Int), x.1.ghostIndex[k]? = some q → son[k]? = o2n.flatten[q.toNat]?) (maps.zip o2n) (by
      intro r z hz
      obtain ⟨m, t⟩ := z
      obtain ⟨hm, ht⟩ := List.getElem?_zip_eq_some.1 hz
      have hF : Faithful (cellLens ps) r m := Faithful.of_pull (S3 r m hm)
      obtain ⟨son, b1, b2, b3⟩ := fetch_all hbo m.ghostIndex (by rw [hN.lens]; exact hF.loc.range)
      exact ⟨t ++ son, by simp only [b1, Res.ok_bind], son, rfl, b2, b3⟩)
  rw [List.length_zip, l3, ho2l, Nat.min_self] at l4
  rw [e4, Res.ok_bind]
  -- the new number is found for every entry
  have hrep : ∀ (r : Nat) (p : Piece) (a : Adj) (x : Held) (m : Map) (tab : List Int), ps[r]? = some p → adj[r]? = some a → held[r]? = some x →
      maps[r]? = some m → tabs[r]? = some tab → ∀ c, (c = Faces.unInit ∨ (Global (cellLens ps) c ∧
        (c ∈ (x.c2c.take p.cells.length).flatten ∨ (∃ z ∈ a.b2c, c = z.1 ∨ c = z.2) ∨ c ∈ x.cellMap.ghostIndex))) →
      replace m tab c = .ok (rename (newOf o2n) c) := by
    intro r p a x m tab hp ha hx hm htab c hc
    have hr := some_lt hp
    obtain ⟨s, y, _, _, hz⟩ := hsg r hr
    obtain ⟨w, hw⟩ := at_some (l := want) (r := r) (by omega)
    obtain ⟨t, ht⟩ := at_some (l := o2n) (r := r) (by omega)
    obtain ⟨son, rfl, q1, q2⟩ := P4 r (m, t) tab (List.getElem?_zip_eq_some.2 ⟨hm, ht⟩) htab
    have hF : Faithful (cellLens ps) r m := Faithful.of_pull (S3 r m hm)
    obtain ⟨w', hw', hlo⟩ := (S3 r m hm).req
    rw [hw] at hw'
    cases hw'
    refine replace_spec (by rw [hN.lens]; exact hF) ht q1 q2 ?_
    rcases hc with hc | ⟨hcg, hc⟩
    · exact Or.inl hc
    · refine Or.inr ⟨hcg.1, ?_⟩
      rw [hN.lens]
      rcases (P2 r _ w hz hw p a x hp ha hx).2 c hcg hc with h | h
      · exact Or.inl h
      · exact Or.inr ((hlo.mem c).2 h)
  have hmt : ∀ r, r < ps.length → ∃ m tab, maps[r]? = some m ∧ tabs[r]? = some tab ∧ (maps.zip tabs)[r]? = some (m, tab) := by
    intro r hr
    obtain ⟨m, hm⟩ := at_some (l := maps) (r := r) (by omega)
    obtain ⟨tab, ht⟩ := at_some (l := tabs) (r := r) (by omega)
    exact ⟨m, tab, hm, ht, List.getElem?_zip_eq_some.2 ⟨hm, ht⟩⟩
  -- neighbours
  obtain ⟨c2c, e5, l5, P5⟩ := N2C.forRanks_all (fun _ (x : (St × Primary) × Map × List Int) =>
      mapRows (fun _ c => replace x.2.1 x.2.2 c) (x.1.2.cell2cell.take x.1.1.nCell))
    (fun r _ rows => ∀ p x, ps[r]? = some p → held[r]? = some x → rows = (x.c2c.take p.cells.length).map (·.map (rename (newOf o2n))))
    ((ss.zip glob).zip (maps.zip tabs)) (by
      intro r z hz
      obtain ⟨⟨s, y⟩, m, tab⟩ := z
      obtain ⟨h1, h2⟩ := List.getElem?_zip_eq_some.1 hz
      obtain ⟨hs, hy⟩ := List.getElem?_zip_eq_some.1 h1
      obtain ⟨hm, htab⟩ := List.getElem?_zip_eq_some.1 h2
      obtain ⟨p, s', a, x, hp, hs', ha, hx, H⟩ := hat r (by rw [← hsl]; exact some_lt hs)
      simp only at hs hy hm htab
      rw [hs] at hs'
      cases hs'
      rw [P1 r s y hs hy p a x hp ha hx]
      simp only [H.nCell]
      refine ⟨_, mapRows_pure _ (rename (newOf o2n)) _ ?_, fun p' x' hp' hx' => ?_⟩
      · intro row hrow _ c hc
        exact hrep r p a x m tab hp ha hx hm htab c (Or.inr ⟨H.c2c_entry row hrow c hc, Or.inl (List.mem_flatten.2 ⟨row, hrow, hc⟩)⟩)
      · rw [hp] at hp'; rw [hx] at hx'
        cases hp'; cases hx'
        rfl)
  rw [List.length_zip, List.length_zip, List.length_zip, l1, l3, l4, hsl, Nat.min_self] at l5
  rw [e5, Res.ok_bind]
  -- boundary cells
  obtain ⟨b2c, e6, l6, P6⟩ := N2C.forRanks_all (fun _ (x : Primary × Map × List Int) =>
      mapRows (fun _ c => replace x.2.1 x.2.2 c) x.1.bnd2cell)
    (fun r _ rows => ∀ a, adj[r]? = some a → rows = (adjOf (newOf o2n) a []).b2c.map (fun z => [z.1, z.2])) (glob.zip (maps.zip tabs)) (by
      intro r z hz
      obtain ⟨y, m, tab⟩ := z
      obtain ⟨hy, h2⟩ := List.getElem?_zip_eq_some.1 hz
      obtain ⟨hm, htab⟩ := List.getElem?_zip_eq_some.1 h2
      obtain ⟨p, s, a, x, hp, hs, ha, hx, H⟩ := hat r (by rw [← l1]; exact some_lt hy)
      simp only at hy hm htab
      rw [P1 r s y hs hy p a x hp ha hx]
      refine ⟨_, mapRows_pure _ (rename (newOf o2n)) _ ?_, fun a' ha' => ?_⟩
      · intro row hrow _ c hc
        obtain ⟨z, hz, rfl⟩ := List.mem_map.1 hrow
        obtain ⟨h1, h2⟩ := H.bnd_entry hM z hz
        refine hrep r p a x m tab hp ha hx hm htab c ?_
        simp only [List.mem_cons, List.not_mem_nil, or_false] at hc
        rcases hc with rfl | rfl
        · exact Or.inr ⟨h1, Or.inr (Or.inl ⟨z, hz, Or.inl rfl⟩)⟩
        · rcases h2 with h2 | h2
          · exact Or.inl h2
          · exact Or.inr ⟨h2, Or.inr (Or.inl ⟨z, hz, Or.inr rfl⟩)⟩
      · rw [ha] at ha'
        cases ha'
        simp only [adjOf, List.map_map]
        exact List.map_congr_left fun z _ => rfl)
  rw [List.length_zip, List.length_zip, l1, l3, l4, Nat.min_self, Nat.min_self] at l6
  rw [e6, Res.ok_bind]
  -- rows in their new places
  have hcz : ∀ (r : Nat) (p : Piece) (t : List Int) (cs : List Cell) (s : St) (a : Adj) (x : Held), ps[r]? = some p → o2n[r]? = some t → css[r]? = some cs →
      Has per ps r p s a x → ∀ {β : Type} (f : Cell → β), place gc r t ((x.cells.map f).take p.cells.length) ((x.cells.map f).take p.cells.length) = .ok (cs.map f) := by
    intro r p t cs s a x hp ht hc H β f
    rw [← List.map_take, own_cells hp H.held]
    exact place_map f _ _ _ _ (hN.cells r p t cs hp ht hc)
  obtain ⟨owns, e7, l7, P7⟩ := N2C.forRanks_all (fun r (x : (St × Primary) × List (List Int) × List Int) => do
      let ns := x.1.2.cell2node.take x.1.1.nCell
      let nodes ← place gc r x.2.2 ns ns
      let rows ← place gc r x.2.2 x.2.1 x.2.1
      let es := x.1.1.info.take x.1.1.nCell
      let info ← place gc r x.2.2 es es
      .ok (⟨nodes, rows, info⟩ : Own))
    (fun r _ o => ∀ p t cs x, ps[r]? = some p → o2n[r]? = some t → css[r]? = some cs → held[r]? = some x →
      o.nodes = cs.map (·.nodes) ∧ o.info = cs.map (fun C => (C.type, C.pbi)) ∧
      place gc r t ((x.c2c.take p.cells.length).map (·.map (rename (newOf o2n)))) ((x.c2c.take p.cells.length).map (·.map (rename (newOf o2n)))) = .ok o.c2c)
    ((ss.zip glob).zip (c2c.zip o2n)) (by
      intro r z hz
      obtain ⟨⟨s, y⟩, rows, t⟩ := z
      obtain ⟨h1, h2⟩ := List.getElem?_zip_eq_some.1 hz
      obtain ⟨hs, hy⟩ := List.getElem?_zip_eq_some.1 h1
      obtain ⟨hrows, ht⟩ := List.getElem?_zip_eq_some.1 h2
      have hr : r < ps.length := by rw [← hsl]; exact some_lt hs
      obtain ⟨p, s', a, x, hp, hs', ha, hx, H⟩ := hat r hr
      obtain ⟨m, tab, _, _, hmt'⟩ := hmt r hr
      simp only at hs hy hrows ht
      rw [hs] at hs'
      cases hs'
      obtain ⟨cs, hcs⟩ := at_some (l := css) (r := r) (by rw [hN.cellsLen]; exact hr)
      rw [P1 r s y hs hy p a x hp ha hx, P5 r ((s, y), m, tab) rows (List.getElem?_zip_eq_some.2 ⟨h1, hmt'⟩) hrows p x hp hx]
      have htl : t.length = p.cells.length := by
        obtain ⟨_, t', _, _, ht', _, hl⟩ := hN.at_ hp
        rw [ht] at ht'
        cases ht'
        exact hl
      obtain ⟨rows', b1, _⟩ := place_spec hg (lens_of hp) t ((x.c2c.take p.cells.length).map (·.map (rename (newOf o2n))))
        ((x.c2c.take p.cells.length).map (·.map (rename (newOf o2n)))) (by rw [List.length_map, H.own_len, htl]) (by rw [List.length_map, H.own_len])
        (hN.nodup r t ht) (hN.owns r t ht)
      refine ⟨⟨cs.map (·.nodes), rows', cs.map (fun C => (C.type, C.pbi))⟩, ?_, fun p' t' cs' x' hp' ht' hc' hx' => ?_⟩
      · simp only [H.nCell, H.info, hcz r p t cs s a x hp ht hcs H (fun C => C.nodes), hcz r p t cs s a x hp ht hcs H (fun C => (C.type, C.pbi)), b1, Res.ok_bind]
      · rw [hp] at hp'; rw [ht] at ht'; rw [hcs] at hc'; rw [hx] at hx'
        cases hp'; cases ht'; cases hc'; cases hx'
        exact ⟨rfl, rfl, b1⟩)
  rw [List.length_zip, List.length_zip, List.length_zip, l1, l5, ho2l, hsl, Nat.min_self, Nat.min_self, Nat.min_self] at l7
  rw [e7, Res.ok_bind]
  -- ghosts
  obtain ⟨ghosts, e8, l8, P8⟩ := N2C.forRanks_all (fun _ (x : St × Map × List Int) =>
      forRanks (fun _ c => replace x.2.1 x.2.2 c) 0 x.1.cellMap.ghostIndex)
    (fun r _ l => ∀ x, held[r]? = some x → l = x.cellMap.ghostIndex.map (rename (newOf o2n))) (ss.zip (maps.zip tabs)) (by
      intro r z hz
      obtain ⟨s, m, tab⟩ := z
      obtain ⟨hs, h2⟩ := List.getElem?_zip_eq_some.1 hz
      obtain ⟨hm, htab⟩ := List.getElem?_zip_eq_some.1 h2
      obtain ⟨p, s', a, x, hp, hs', ha, hx, H⟩ := hat r (by rw [← hsl]; exact some_lt hs)
      simp only at hs hm htab
      rw [hs] at hs'
      cases hs'
      simp only [H.cmap]
      refine ⟨_, forRanks_pure _ (rename (newOf o2n)) _ ?_, fun x' hx' => ?_⟩
      · intro _ c hc
        exact hrep r p a x m tab hp ha hx hm htab c (Or.inr ⟨H.ghost_entry c hc, Or.inr (Or.inr hc)⟩)
      · rw [hx] at hx'
        cases hx'
        rfl)
  rw [List.length_zip, List.length_zip, l3, l4, hsl, Nat.min_self, Nat.min_self] at l8
  rw [e8, Res.ok_bind]
  have hghost : ∀ (r : Nat) (l : List Int), ghosts[r]? = some l → ∃ p s a x, Has per ps r p s a x ∧ held[r]? = some x ∧ l = x.cellMap.ghostIndex.map (rename (newOf o2n)) := by
    intro r l hl
    have hr : r < ps.length := by rw [← l8]; exact some_lt hl
    obtain ⟨p, s, a, x, hp, hs, ha, hx, H⟩ := hat r hr
    obtain ⟨m, tab, _, _, hz⟩ := hmt r hr
    exact ⟨p, s, a, x, H, hx, P8 r (s, m, tab) l (List.getElem?_zip_eq_some.2 ⟨hs, hz⟩) hl x hx⟩
  obtain ⟨cmaps, hcm2⟩ := pull_small hg hs' ghosts (by omega) (by
    intro l hl q hq
    obtain ⟨r, hr⟩ := List.mem_iff_getElem?.1 hl
    obtain ⟨p, s, a, x, H, hx, rfl⟩ := hghost r l hr
    obtain ⟨c, hc, rfl⟩ := List.mem_map.1 hq
    rw [rename_global (H.ghost_entry c hc)]
    exact hR.global (H.ghost_entry c hc))
  obtain ⟨l9, S9⟩ := createPull_spec hg ghosts (by omega) cmaps hcm2
  rw [hcl] at l9
  rw [hcm2, Res.ok_bind]
  -- the new mesh
  have hps' : (piecesOf ps css).length = ps.length := hR.ranks
  have hown : ∀ (r : Nat) (o : Own), owns[r]? = some o → ∃ p s a x t cs, Has per ps r p s a x ∧ adj[r]? = some a ∧ held[r]? = some x ∧ o2n[r]? = some t ∧
      css[r]? = some cs ∧ (piecesOf ps css)[r]? = some { p with cells := cs } ∧ o.nodes = cs.map (·.nodes) ∧ o.info = cs.map (fun C => (C.type, C.pbi)) ∧
      AdjMeans per (piecesOf ps css) r { p with cells := cs } (adjOf (newOf o2n) a o.c2c) := by
    intro r o ho
    have hr : r < ps.length := by rw [← l7]; exact some_lt ho
    obtain ⟨p, s, a, x, hp, hs, ha, hx, H⟩ := hat r hr
    obtain ⟨s, y, hs', hy, hz⟩ := hsg r hr
    obtain ⟨t, ht⟩ := at_some (l := o2n) (r := r) (by omega)
    obtain ⟨rows, hrows⟩ := at_some (l := c2c) (r := r) (by omega)
    obtain ⟨cs, hcs⟩ := at_some (l := css) (r := r) (by rw [hN.cellsLen]; exact hr)
    obtain ⟨b1, b2, b3⟩ := P7 r ((s, y), rows, t) o (List.getElem?_zip_eq_some.2 ⟨hz, List.getElem?_zip_eq_some.2 ⟨hrows, ht⟩⟩) ho p t cs x hp ht hcs hx
    exact ⟨p, _, a, x, t, cs, H, ha, hx, ht, hcs, piecesOf_at hp hcs, b1, b2, hN.adjMeans hg hM H ht hcs b3⟩
  have hfield : ∀ {β : Type} (f : Cell → β) (k : Own → List β), (∀ (r : Nat) (o : Own) (cs : List Cell), owns[r]? = some o → css[r]? = some cs → k o = cs.map f) →
      owns.map k = ((piecesOf ps css).map (·.cells)).map (·.map f) := by
    intro β f k hk
    refine List.ext_getElem? fun r => ?_
    by_cases hr : r < ps.length
    · obtain ⟨o, ho⟩ := at_some (l := owns) (r := r) (by omega)
      obtain ⟨p, s, a, x, t, cs, H, ha, hx, ht, hcs, hp', _⟩ := hown r o ho
      simp only [List.getElem?_map, ho, hp', Option.map_some, hk r o cs ho hcs]
    · rw [List.getElem?_eq_none (by simp; omega), List.getElem?_eq_none (by simp; omega)]
  have hf1 := hfield (fun C : Cell => C.nodes) (·.nodes) (by
    intro r o cs ho hcs
    obtain ⟨p, s, a, x, t, cs', H, ha, hx, ht, hcs', hp', h1, h2, _⟩ := hown r o ho
    rw [hcs] at hcs'
    cases hcs'
    exact h1)
  have hf2 := hfield (fun C : Cell => (C.type, C.pbi)) (·.info) (by
    intro r o cs ho hcs
    obtain ⟨p, s, a, x, t, cs', H, ha, hx, ht, hcs', hp', h1, h2, _⟩ := hown r o ho
    rw [hcs] at hcs'
    cases hcs'
    exact h2)
  have hlc : (owns.map (fun o : Own => o.c2c)).map List.length = cellLens (piecesOf ps css) := by
    refine List.ext_getElem? fun r => ?_
    by_cases hr : r < ps.length
    · obtain ⟨o, ho⟩ := at_some (l := owns) (r := r) (by omega)
      obtain ⟨p, s, a, x, t, cs, H, ha, hx, ht, hcs, hp', _, _, hA⟩ := hown r o ho
      simp only [List.getElem?_map, ho, lens_of hp', Option.map_some]
      exact congrArg some hA.rows
    · rw [List.getElem?_eq_none (by simp; omega), List.getElem?_eq_none (by simp [cellLens]; omega)]
  have hrowsOk : ∀ (i : Int) (row : List Int), 0 ≤ i → (owns.map (fun o : Own => o.c2c)).flatten[i.toNat]? = some row →
      row.Nodup ∧ ∀ c, c ∈ row ↔ c ≠ i ∧ ∃ q, HasNode (piecesOf ps css) i q ∧ HasNode (piecesOf ps css) c q := by
    intro i row hi hrow
    have hlt := some_lt hrow
    rw [List.length_flatten] at hlt
    obtain ⟨r, hr⟩ := owns_exists hi (lens := (owns.map (fun o : Own => o.c2c)).map List.length) (by omega)
    obtain ⟨own, o1, o2, o3⟩ := owns_flatten hr
    rw [List.getElem?_map] at o1
    obtain ⟨o, ho, rfl⟩ := Option.map_eq_some_iff.1 o1
    obtain ⟨p, s, a, x, t, cs, H, ha, hx, ht, hcs, hp', _, _, hA⟩ := hown r o ho
    rw [hrow] at o3
    rw [hlc] at o3 hr
    refine ⟨hA.once row (List.mem_of_getElem? o3.symm), fun c => ?_⟩
    have := hA.exact_ _ row o3.symm c
    have he : (before (cellLens (piecesOf ps css)) r : Int) + ((i - before (cellLens (piecesOf ps css)) r).toNat : Int) = i := by
      obtain ⟨_, z, _⟩ := hr; omega
    rw [he] at this
    exact this
  have hM' := hR.meshOk hM
  have hgc' : Built (cellLens (piecesOf ps css)) gc := by rw [hR.cellLens]; exact hg
  -- the ranks
  obtain ⟨out, e10, l10, P10⟩ := N2C.forRanks_all (fun _ (x : ((St × Primary) × List (List Int)) × Own × Map) => do
      let nodes ← forRanks (fun _ q => fetch gc (owns.map (·.nodes)) q) 0 x.2.2.ghostIndex
      let rows ← forRanks (fun _ q => fetch gc (owns.map (·.c2c)) q) 0 x.2.2.ghostIndex
      let info ← forRanks (fun _ q => fetch gc (owns.map (·.info)) q) 0 x.2.2.ghostIndex
      let prim ← adjGlobal2LocalPrimary (mapsOf x.2.2 x.1.1.1.nodeMap)
        { x.1.1.2 with cell2cell := x.2.1.c2c ++ rows, bnd2cell := x.1.2, cell2node := x.2.1.nodes ++ nodes }
      .ok (⟨x.2.1.info ++ info, prim, x.2.2, x.1.1.1.nodeMap⟩ : St))
    (fun r z y => y.nodeMap = z.1.1.1.nodeMap ∧ ∀ p', (piecesOf ps css)[r]? = some p' → RankOk per (piecesOf ps css) r p' y)
    (((ss.zip glob).zip b2c).zip (owns.zip cmaps)) (by
      intro r z hz
      obtain ⟨⟨⟨s, y⟩, bs⟩, o, cm⟩ := z
      obtain ⟨h1, h2⟩ := List.getElem?_zip_eq_some.1 hz
      obtain ⟨h3, hbs⟩ := List.getElem?_zip_eq_some.1 h1
      obtain ⟨hs'', hy⟩ := List.getElem?_zip_eq_some.1 h3
      obtain ⟨ho, hcm'⟩ := List.getElem?_zip_eq_some.1 h2
      simp only at hs'' hy hbs ho hcm'
      obtain ⟨p, s0, a, x, t, cs, H, ha, hx, ht, hcs, hp', hn, hi, hA⟩ := hown r o ho
      have H : Has per ps r p s a x := hhas r p s a x H.piece hs'' ha hx
      have hr : r < ps.length := some_lt H.piece
      obtain ⟨m, tab, _, _, hz'⟩ := hmt r hr
      rw [P1 r s y hs'' hy p a x H.piece ha hx, P6 r (y, m, tab) bs (List.getElem?_zip_eq_some.2 ⟨hy, hz'⟩) hbs a ha]
      have hF : Faithful (cellLens ps) r cm := Faithful.of_pull (S9 r cm hcm')
      have hrange : ∀ q ∈ cm.ghostIndex, Global (cellLens ps) q := hF.loc.range
      have hcol : Collective (cellLens (piecesOf ps css)) r cm := by
        rw [hR.cellLens]; exact .pull gc ghosts cmaps hg (by omega) hcm2 hcm'
      have hg' : ∀ c, c ∈ cm.ghostIndex ↔ ∃ d ∈ x.cellMap.ghostIndex, newOf o2n d = c := by
        intro c
        obtain ⟨l, hl, hlo⟩ := (S9 r cm hcm').req
        obtain ⟨_, _, _, x', H', hx', rfl⟩ := hghost r l hl
        rw [hx] at hx'
        cases hx'
        refine (hlo.mem c).trans ?_
        rw [List.mem_map]
        constructor
        · rintro ⟨d, hd, e⟩; exact ⟨d, hd, by rw [← e, rename_global (H.ghost_entry d hd)]⟩
        · rintro ⟨d, hd, e⟩; exact ⟨d, hd, by rw [← e, rename_global (H.ghost_entry d hd)]⟩
      obtain ⟨son, b1, b2, b3⟩ := fetch_all (rows := (piecesOf ps css).map (·.cells)) (g := gc) (by rw [cellLens_eq]; exact hgc') cm.ghostIndex
        (by rw [cellLens_eq, hR.cellLens]; exact hrange)
      obtain ⟨son2, d1, d2, d3⟩ := fetch_all (rows := owns.map (fun o : Own => o.c2c)) (g := gc) (by rw [hlc]; exact hgc') cm.ghostIndex
        (by rw [hlc, hR.cellLens]; exact hrange)
      have hnd := fetch_map (fun C : Cell => C.nodes) (rows := (piecesOf ps css).map (·.cells)) (g := gc) (by rw [cellLens_eq]; exact hgc') cm.ghostIndex
        (by rw [cellLens_eq, hR.cellLens]; exact hrange) b2 b3
      have hin := fetch_map (fun C : Cell => (C.type, C.pbi)) (rows := (piecesOf ps css).map (·.cells)) (g := gc) (by rw [cellLens_eq]; exact hgc') cm.ghostIndex
        (by rw [cellLens_eq, hR.cellLens]; exact hrange) b2 b3
      rw [← hf1] at hnd
      rw [← hf2] at hin
      have hH : HeldMeans (piecesOf ps css) r ⟨cs ++ son, o.c2c ++ son2, cm, x.nodeMap⟩ := by
        refine heldMeans_of hlc hrowsOk hp' (own := o.c2c) (by rw [List.getElem?_map, ho]; rfl) hcol (by rw [hR.nodeLens]; exact H.held.nodeMap) ?_ ?_ b2 b3 d2 d3
        · intro c
          rw [hg', hR.cellLens]
          constructor
          · rintro ⟨d, hd, rfl⟩
            obtain ⟨h4, h5⟩ := (H.held.ghosts d).1 hd
            have := H.ghost_entry d hd
            exact ⟨fun ho => h4 ((hR.owns_iff this).1 ho), (hR.touches_iff this).2 h5⟩
          · rintro ⟨h4, h5⟩
            obtain ⟨d, q, e1', e2', e3'⟩ := id h5
            obtain ⟨c0, hc0, rfl⟩ := hR.back (hasNode_global e3')
            exact ⟨c0, (H.held.ghosts c0).2 ⟨fun ho => h4 ((hR.owns_iff hc0).2 ho), (hR.touches_iff hc0).1 h5⟩, rfl⟩
        · intro q
          rw [H.held.nodes q, hR.nodeLens, hR.cellLens]
          refine and_congr_right fun _ => ?_
          constructor
          · rintro ⟨c, h4, h5⟩
            have hcg := hasNode_global h5
            refine ⟨newOf o2n c, ?_, (hR.hasNode_iff hcg q).2 h5⟩
            rcases h4 with h4 | h4
            · exact Or.inl (hR.own r c h4)
            · exact Or.inr ((hg' _).2 ⟨c, h4, rfl⟩)
          · rintro ⟨c, h4, h5⟩
            obtain ⟨c0, hc0, rfl⟩ := hR.back (hasNode_global h5)
            refine ⟨c0, ?_, (hR.hasNode_iff hc0 q).1 h5⟩
            rcases h4 with h4 | h4
            · exact Or.inl ((hR.owns_iff hc0).1 h4)
            · obtain ⟨d, hd, e⟩ := (hg' _).1 h4
              rw [← hR.inj d c0 (H.ghost_entry d hd) hc0 e]
              exact Or.inr hd
      obtain ⟨y', f1, f2, f3⟩ := toLocal_ok hM' (by rw [hR.nodeLens]; exact hs) (by rw [hR.cellLens]; exact hs') hp' hA hH
      have hst : y'.state = .pointToLocal := by
        rw [adjLocal2GlobalPrimary, Res.bind_ok_iff] at f3
        obtain ⟨_, h8, _⟩ := f3
        exact (Res.assert_ok_iff _ _).1 h8
      refine ⟨⟨(cs ++ son).map (fun C => (C.type, C.pbi)), y', cm, x.nodeMap⟩, ?_, H.nmap.symm, fun p'' hp'' => ?_⟩
      · simp only [hnd, hin, d1, Res.ok_bind, H.nmap, hn, hi, ← List.map_append]
        have : adjGlobal2LocalPrimary (mapsOf cm x.nodeMap) ⟨.pointToGlobal, o.c2c ++ son2, (adjOf (newOf o2n) a []).b2c.map (fun z => [z.1, z.2]),
            (cs ++ son).map (fun C => C.nodes), p.bnds.map (fun b => b.nodes)⟩ = .ok y' := f1
        rw [this, Res.ok_bind]
      · rw [hp'] at hp''
        cases hp''
        exact ⟨⟨_, _, hA, hH, f2, rfl, rfl, rfl⟩, hst⟩)
  rw [List.length_zip, List.length_zip, List.length_zip, List.length_zip, l1, l6, l7, l9, hsl, Nat.min_self, Nat.min_self, Nat.min_self] at l10
  have hzo : ∀ (r : Nat) (s : St), ss[r]? = some s → ∃ y bs o cm, (((ss.zip glob).zip b2c).zip (owns.zip cmaps))[r]? = some (((s, y), bs), o, cm) := by
    intro r s hs0
    have hr : r < ps.length := by rw [← hsl]; exact some_lt hs0
    obtain ⟨y, hy⟩ := at_some (l := glob) (r := r) (by omega)
    obtain ⟨bs, hbs⟩ := at_some (l := b2c) (r := r) (by omega)
    obtain ⟨o, ho⟩ := at_some (l := owns) (r := r) (by omega)
    obtain ⟨cm, hcm'⟩ := at_some (l := cmaps) (r := r) (by omega)
    exact ⟨y, bs, o, cm, List.getElem?_zip_eq_some.2 ⟨List.getElem?_zip_eq_some.2 ⟨List.getElem?_zip_eq_some.2 ⟨hs0, hy⟩, hbs⟩,
      List.getElem?_zip_eq_some.2 ⟨ho, hcm'⟩⟩⟩
  refine ⟨out, e10, ⟨by omega, ?_⟩, ?_⟩
  · intro r p' s' hp' hs0
    obtain ⟨s, hss⟩ := at_some (l := ss) (r := r) (by have := some_lt hs0; omega)
    obtain ⟨y, bs, o, cm, hz⟩ := hzo r s hss
    exact (P10 r _ s' hz hs0).2 p' hp'
  · intro r s s' hss hs0
    obtain ⟨y, bs, o, cm, hz⟩ := hzo r s hss
    exact (P10 r _ s' hz hs0).1

end DNDSR.Reorder
