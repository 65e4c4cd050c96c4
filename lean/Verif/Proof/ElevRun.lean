import Verif.Proof.ElevSeek

/-!
# The stages of the elevation over all ranks
-/

namespace DNDSR.Elev

open DNDSR.IMap DNDSR.MeshAdj DNDSR.Ghost
open DNDSR.Faces hiding rename St search
open DNDSR.Reorder hiding rename
open DNDSR.Elem hiding V3
open DNDSR.Bits (Mark)
open DNDSR.Per (V3 Periodicity)

variable {per : Bool} {P : Periodicity} {ps : List Piece} {X : Int → V3} {D : List Rk}

/-- an upper bound of the number of nodes of each rank afterwards -/
def room (ps : List Piece) : List Nat := ps.map (fun p => p.nNodes + 19 * p.cells.length)

theorem small_of {l l' : List Nat} (hl : l'.length = l.length) (h : ∀ (r : Nat) (n : Nat), l'[r]? = some n → ∃ m, l[r]? = some m ∧ n ≤ m) (hs : Small l) :
    Small l' := by
  intro n hn
  obtain ⟨r, hr⟩ := List.mem_iff_getElem?.1 hn
  obtain ⟨m, h1, h2⟩ := h r n hr
  have := hs m (List.mem_of_getElem? h1)
  have h3 : l'.length * n ≤ l.length * m := by rw [hl]; exact Nat.mul_le_mul_left _ h2
  omega

theorem small_nodes (hs : Small (room ps)) : Small (nodeLens ps) := by
  refine small_of (by simp [room, nodeLens]) ?_ hs
  intro r n h
  rw [nodeLens, List.getElem?_map] at h
  obtain ⟨p, hp, rfl⟩ := Option.map_eq_some_iff.1 h
  exact ⟨p.nNodes + 19 * p.cells.length, by rw [room, List.getElem?_map, hp]; rfl, by omega⟩

theorem small_cells (hs : Small (room ps)) : Small (cellLens ps) := by
  refine small_of (by simp [room, cellLens]) ?_ hs
  intro r n h
  rw [cellLens, List.getElem?_map] at h
  obtain ⟨p, hp, rfl⟩ := Option.map_eq_some_iff.1 h
  exact ⟨p.nNodes + 19 * p.cells.length, by rw [room, List.getElem?_map, hp]; rfl, by omega⟩

theorem flatten_le {α : Type} (n : Nat) : ∀ (l : List (List α)), (∀ x ∈ l, x.length ≤ n) → l.flatten.length ≤ n * l.length
  | [], _ => by simp
  | x :: l, h => by
      have h1 := flatten_le n l (fun y hy => h y (List.mem_cons_of_mem _ hy))
      have h2 := h x (List.mem_cons_self ..)
      rw [List.flatten_cons, List.length_append, List.length_cons, Nat.mul_add]
      omega

theorem small_new (h : All per P ps X D) (hs : Small (room ps)) : Small (lens2 D) := by
  refine small_of (by simp [room, lens2, h.length]) ?_ hs
  intro r n hn
  obtain ⟨d, hd⟩ := at_some (l := D) (r := r) (by simpa [lens2] using some_lt hn)
  rw [lens2_at hd] at hn
  cases hn
  refine ⟨d.p.nNodes + 19 * d.p.cells.length, by rw [room, List.getElem?_map, h.piece hd]; rfl, ?_⟩
  have hok := h.ok r d hd
  have h1 : (newCoords d.c).length ≤ d.c.flatten.length := by rw [newCoords, List.length_map]; exact List.length_filter_le _ _
  have h2 := flatten_le 19 d.c (by
    intro cs hcs
    obtain ⟨l, hl⟩ := List.mem_iff_getElem?.1 hcs
    obtain ⟨C, hC⟩ := at_some (l := d.p.cells) (r := l) (by rw [← hok.found.len]; exact some_lt hl)
    rw [(hok.found.row l C cs hC hl).1]
    exact numElev_le _)
  rw [hok.found.len] at h2
  have := hok.ownLen
  omega

/-! ### the first stage -/

theorem all_exists (hE : Elevatable per P ps X) {xs : List RankO1} (hx : RanksHave per ps X xs) (hs : Small (room ps)) :
    ∃ cs D, forRanks (fun _ x => chooseAll per P x) 0 xs = .ok cs ∧ All per P ps X D ∧ D.map (·.y) = xs ∧ D.map (·.c) = cs := by
  have hl : xs.length = ps.length := by have := hx.ranks.len; simpa using this
  obtain ⟨cs, e1, e2, e3⟩ := N2C.forRanks_all (fun _ x => chooseAll per P x)
    (fun r y c => ∀ p, ps[r]? = some p → ∃ a x L, RkOk per P ps X r ⟨p, y, a, x, c, L⟩) xs (by
      intro r y hy
      have hr : r < ps.length := by rw [← hl]; exact some_lt hy
      have hp := List.getElem?_eq_getElem hr
      generalize ps[r] = p at hp
      obtain ⟨a, x, hh⟩ := has_of hE.mesh (small_nodes hs) (small_cells hs) hp (hx.ranks.rank r p y.st hp (by rw [List.getElem?_map, hy]; rfl))
      have hco := fun q v => hx.coords r y q v hy
      obtain ⟨c, c1, c2⟩ := chooseAll_spec hE hh hco
      obtain ⟨L, hL⟩ := numbers_exist c 0
      refine ⟨c, c1, fun p' hp' => ?_⟩
      rw [hp] at hp'; cases hp'
      have hmain : y.st.nodeMap.mainSize = p.nNodes := by
        rw [hh.nmap]
        have := hh.held.nodeMap.faithful.size
        rw [nodeLens, List.getElem?_map, hp] at this
        simpa using this.symm
      refine ⟨a, x, L, hh, c2, hL, hmain, ?_, hco, hx.zones r p y hp hy⟩
      have := hx.size y (List.mem_of_getElem? hy)
      show p.nNodes ≤ y.coords.length
      omega)
  obtain ⟨D, d1, d2⟩ := list_of (P := fun r (d : Rk) => ps[r]? = some d.p ∧ xs[r]? = some d.y ∧ cs[r]? = some d.c ∧ RkOk per P ps X r d) ps.length (by
    intro r hr
    have hp := List.getElem?_eq_getElem hr
    obtain ⟨y, hy⟩ := at_some (l := xs) (r := r) (by omega)
    obtain ⟨c, hc⟩ := at_some (l := cs) (r := r) (by omega)
    obtain ⟨a, x, L, hok⟩ := e3 r y c hy hc _ hp
    exact ⟨⟨_, y, a, x, c, L⟩, hp, hy, hc, hok⟩)
  have hmap : ∀ {β : Type} (f : Rk → β) (l : List β), l.length = D.length → (∀ (r : Nat) (d : Rk), D[r]? = some d → l[r]? = some (f d)) → D.map f = l := by
    intro β f l h1 h2
    refine List.ext_getElem? fun r => ?_
    rw [List.getElem?_map]
    by_cases hr : r < D.length
    · have hd := List.getElem?_eq_getElem hr
      rw [hd, h2 r _ hd]; rfl
    · rw [List.getElem?_eq_none (by omega), List.getElem?_eq_none (by omega)]; rfl
  refine ⟨cs, D, e1, ⟨hmap _ ps d1.symm (fun r d hd => (d2 r d hd).1), fun r d hd => (d2 r d hd).2.2.2⟩,
    hmap _ xs (by omega) (fun r d hd => (d2 r d hd).2.1), hmap _ cs (by omega) (fun r d hd => (d2 r d hd).2.2.1)⟩

theorem at_map {β : Type} {f : Rk → β} {r : Nat} {z : β} (h : (D.map f)[r]? = some z) : ∃ d, D[r]? = some d ∧ f d = z := by
  rw [List.getElem?_map] at h
  exact Option.map_eq_some_iff.1 h

/-! ### rows of global numbers -/

/-- the entries of a row before they are made global -/
theorem RkOk.entry {r : Nat} {d : Rk} (h : RkOk per P ps X r d) {row : List Int} (hr : row ∈ numberRows 0 d.c) {v : Int} (hv : v ∈ row) :
    v < 0 ∨ v < (newCoords d.c).length := by
  obtain ⟨l, hl⟩ := List.mem_iff_getElem?.1 hr
  obtain ⟨k, hk⟩ := List.mem_iff_getElem?.1 hv
  obtain ⟨cs, hcs⟩ := at_some (l := d.c) (r := l) (by rw [← h.numbers.rows]; exact some_lt hl)
  obtain ⟨row', n1, n2, n3⟩ := h.numbers.row l cs hcs
  rw [hl] at n1; cases n1
  obtain ⟨c, hc⟩ := at_some (l := cs) (r := k) (by rw [← n2]; exact some_lt hk)
  obtain ⟨g1, g2⟩ := n3 k c hc
  cases ho : c.own with
  | false =>
    left
    obtain ⟨C, hC⟩ := at_some (l := d.p.cells) (r := l) (by rw [← h.found.len]; exact some_lt hcs)
    obtain ⟨_, gs, _, f3⟩ := h.found.row l C cs hC hcs
    obtain ⟨n, _, _, _, e, _⟩ := (f3 k c hc).other ho
    have := g1 ho
    rw [hk, e] at this
    cases this
    omega
  | true =>
    right
    obtain ⟨m, hm⟩ := g2 ho
    obtain ⟨cs', c', row', t1, t2, t3, t4, t5, t6⟩ := h.numbers.tag m l k hm
    rw [hl] at t4; cases t4
    rw [hk] at t5; cases t5
    have := some_lt t6
    omega

theorem rows_stage (h : All per P ps X D) {gn : GOM} (hg : Built (lens2 D) gn) :
    ∃ rows, forRanks (fun r (y : RankO1 × List (List Choice)) =>
      forRanks (fun _ row => globalRow gn r y.1.st.nodeMap.mainSize row) 0 (numberRows 0 y.2)) 0 ((D.map (·.y)).zip (D.map (·.c))) = .ok rows ∧
      RowsOf D rows := by
  have hz : (D.map (·.y)).zip (D.map (·.c)) = D.map (fun d => (d.y, d.c)) := List.zip_map' ..
  rw [hz]
  obtain ⟨rows, e1, e2, e3⟩ := N2C.forRanks_all (fun r (y : RankO1 × List (List Choice)) =>
      forRanks (fun _ row => globalRow gn r y.1.st.nodeMap.mainSize row) 0 (numberRows 0 y.2))
    (fun r _ out => ∀ d, D[r]? = some d → out = d.rows (lens2 D) r) (D.map (fun d => (d.y, d.c))) (by
      intro r y hy
      obtain ⟨d, hd, rfl⟩ := at_map hy
      refine ⟨d.rows (lens2 D) r, ?_, fun d' hd' => by rw [hd] at hd'; cases hd'; rfl⟩
      have hok := h.ok r d hd
      obtain ⟨l1, l2⟩ := List.getElem?_eq_some_iff.1 (lens2_at hd)
      have hlen := hok.ownLen
      rw [Rk.rows]
      refine Reorder.forRanks_pure _ (List.map (glob (before (lens2 D) r) d.p.nNodes)) (numberRows 0 d.c) ?_
      intro _ row hrow
      unfold globalRow
      refine Reorder.forRanks_pure _ (glob (before (lens2 D) r) d.p.nNodes) row ?_
      intro _ v hv
      unfold glob
      by_cases hneg : v < 0
      · rw [if_pos hneg, if_pos hneg]
      · rw [if_neg hneg, if_neg hneg]
        have hlt := (hok.entry hrow hv).resolve_left hneg
        have hm : d.y.st.nodeMap.mainSize = d.p.nNodes := hok.main
        rw [apply_eq hg r l1, hm, if_pos ⟨by omega, by rw [l2]; omega⟩])
  refine ⟨rows, e1, by simpa using e2, ?_⟩
  intro r d hd
  obtain ⟨out, ho⟩ := at_some (l := rows) (r := r) (by rw [e2, List.length_map]; exact some_lt hd)
  rw [ho, e3 r _ out (by rw [List.getElem?_map, hd]; rfl) ho d hd]

/-- what a rank has of the rows of all cells -/
structure HeldRows (ps : List Piece) (R : List (List Int)) (r : Nat) (d : Rk) (h : List (List Int)) : Prop where
  mem : ∀ row ∈ h, row ∈ R
  at_ : ∀ c v : Int, 0 ≤ c → 0 ≤ v → LocalName (cellLens ps) r d.y.st.cellMap.ghostIndex c v → h[v.toNat]? = R[c.toNat]?

theorem held_stage (h : All per P ps X D) {rows : List (List (List Int))} (hr : RowsOf D rows) {gc : GOM} (hg : Built (cellLens ps) gc) :
    ∃ held, forRanks (fun _ (y : RankO1 × List (List Int)) => do
      let son ← forRanks (fun _ q => fetch gc rows q) 0 y.1.st.cellMap.ghostIndex
      .ok (y.2 ++ son)) 0 ((D.map (·.y)).zip rows) = .ok held ∧ held.length = D.length ∧
      ∀ r d x, D[r]? = some d → held[r]? = some x → HeldRows ps rows.flatten r d x := by
  have hlens := hr.lens h
  obtain ⟨held, e1, e2, e3⟩ := N2C.forRanks_all (fun _ (y : RankO1 × List (List Int)) => do
      let son ← forRanks (fun _ q => fetch gc rows q) 0 y.1.st.cellMap.ghostIndex
      .ok (y.2 ++ son))
    (fun r _ out => ∀ d, D[r]? = some d → HeldRows ps rows.flatten r d out) ((D.map (·.y)).zip rows) (by
      intro r y hy
      obtain ⟨y1, y2⟩ := y
      obtain ⟨h1, h2⟩ := List.getElem?_zip_eq_some.1 hy
      obtain ⟨d, hd, hdy⟩ := at_map h1
      have hdy : d.y = y1 := hdy
      subst hdy
      have hok := h.ok r d hd
      have hcm : d.y.st.cellMap = d.x.cellMap := hok.has.cmap
      have hF : Faithful (cellLens ps) r d.y.st.cellMap := by rw [hcm]; exact hok.has.held.cellMap.faithful
      obtain ⟨son, s1, s2, s3⟩ := fetch_all (rows := rows) (g := gc) (by rw [hlens]; exact hg) d.y.st.cellMap.ghostIndex (by
        intro q hq
        rw [hlens]
        exact hF.loc.range q hq)
      refine ⟨y2 ++ son, by simp only [s1, Res.ok_bind], fun d' hd' => ?_⟩
      rw [hd] at hd'; cases hd'
      refine ⟨?_, ?_⟩
      · intro row hrow
        rcases List.mem_append.1 hrow with hrow | hrow
        · exact List.mem_flatten.2 ⟨y2, List.mem_of_getElem? h2, hrow⟩
        · obtain ⟨k, hk⟩ := List.mem_iff_getElem?.1 hrow
          obtain ⟨q, hq⟩ := at_some (l := d.y.st.cellMap.ghostIndex) (r := k) (by rw [← s2]; exact some_lt hk)
          have := s3 k q hq
          rw [hk] at this
          exact List.mem_of_getElem? this.symm
      · intro c v hc hv hn
        exact held_row (rows := rows) (by rw [hlens]; exact hF) h2 s2 s3 hc hv (by rw [hlens]; exact hn))
  have hlz : ((D.map (·.y)).zip rows).length = D.length := by rw [List.length_zip, List.length_map, hr.len]; omega
  refine ⟨held, e1, by omega, ?_⟩
  intro r d x hd hx
  obtain ⟨y, hy⟩ := at_some (l := (D.map (·.y)).zip rows) (r := r) (by rw [hlz]; exact some_lt hd)
  exact e3 r y x hy hx d hd

/-- entries are negative or numbers of nodes -/
theorem Named.global {R : List (List Int)} (hN : Named per P ps X D R) {row : List Int} (hrow : row ∈ R) {q : Int} (hq : q ∈ row) (h0 : 0 ≤ q) :
    Global (lens2 D) q := by
  obtain ⟨i, hi⟩ := List.mem_iff_getElem?.1 hrow
  obtain ⟨k, hk⟩ := List.mem_iff_getElem?.1 hq
  obtain ⟨C, hC⟩ := at_some (l := whole ps) (r := i) (by rw [← hN.size]; exact some_lt hi)
  have hlen := hN.row i C row hC hi
  have hnew : IsNew ps i k C := ⟨hC, by rw [← hlen]; exact some_lt hk⟩
  by_cases hf : First ps i k C
  · obtain ⟨row', q', r, d, f1, f2, f3, f4, _⟩ := hN.first i k C hf
    rw [hi] at f1; cases f1
    rw [hk] at f2; cases f2
    exact owns_range f4
  · have := hN.neg i k C row q hnew hf hi hk
    omega

/-- the node numbers a rank can look up -/
def Sees (D : List Rk) (h : List (List Int)) (m : Map) (coords : List V3) : Prop :=
  ∀ row ∈ h, ∀ q ∈ row, 0 ≤ q → ∃ z, (D.map Rk.own).flatten[q.toNat]? = some z ∧ Reads m coords q z

theorem coords_stage (h : All per P ps X D) (hs : Small (room ps)) {gn : GOM} (hg : Built (lens2 D) gn) {R : List (List Int)} (hN : Named per P ps X D R)
    {held : List (List (List Int))} (hl : held.length = D.length) (hh : ∀ r d x, D[r]? = some d → held[r]? = some x → HeldRows ps R r d x) :
    ∃ want maps coords, forRanks (fun r (h : List (List Int)) => away gn r (h.flatten.filter (fun q => decide (0 ≤ q)))) 0 held = .ok want ∧
      createPull gn ((D.map Rk.own).map List.length) want = .ok maps ∧
      forRanks (fun _ (y : List V3 × Map) => do
        let son ← forRanks (fun _ q => fetch gn (D.map Rk.own) q) 0 y.2.ghostIndex
        .ok (y.1 ++ son)) 0 ((D.map Rk.own).zip maps) = .ok coords ∧ maps.length = D.length ∧ coords.length = D.length ∧
      ∀ (r : Nat) (x : List (List Int)) (m : Map) (c : List V3), held[r]? = some x → maps[r]? = some m → coords[r]? = some c → Sees D x m c := by
  obtain ⟨want, w1, w2, w3⟩ := N2C.forRanks_all (fun r (h : List (List Int)) => away gn r (h.flatten.filter (fun q => decide (0 ≤ q))))
    (fun r x t => ∀ q, q ∈ t ↔ (∃ row ∈ x, q ∈ row ∧ 0 ≤ q) ∧ ¬ Owns (lens2 D) r q) held (by
      intro r x hx
      obtain ⟨d, hd⟩ := at_some (l := D) (r := r) (by rw [← hl]; exact some_lt hx)
      have hH := hh r d x hd hx
      obtain ⟨t, t1, _, t3⟩ := away_spec hg r (x.flatten.filter (fun q => decide (0 ≤ q))) (by
        intro q hq
        obtain ⟨h1, h2⟩ := List.mem_filter.1 hq
        obtain ⟨row, h3, h4⟩ := List.mem_flatten.1 h1
        exact hN.global (hH.mem row h3) h4 (of_decide_eq_true h2))
      refine ⟨t, t1, fun q => ?_⟩
      rw [t3 q, List.mem_filter, List.mem_flatten, decide_eq_true_eq]
      constructor
      · rintro ⟨⟨⟨row, a1, a2⟩, a3⟩, a4⟩; exact ⟨⟨row, a1, a2, a3⟩, a4⟩
      · rintro ⟨⟨row, a1, a2, a3⟩, a4⟩; exact ⟨⟨⟨row, a1, a2⟩, a3⟩, a4⟩)
  have hlw : want.length = (lens2 D).length := by rw [w2, hl]; simp [lens2]
  have hrange : ∀ req ∈ want, ∀ q ∈ req, 0 ≤ q ∧ q < (lens2 D).sum := by
    intro req hreq q hq
    obtain ⟨r, hr⟩ := List.mem_iff_getElem?.1 hreq
    obtain ⟨x, hx⟩ := at_some (l := held) (r := r) (by rw [← w2]; exact some_lt hr)
    obtain ⟨d, hd⟩ := at_some (l := D) (r := r) (by rw [← hl]; exact some_lt hx)
    obtain ⟨⟨row, a1, a2, a3⟩, _⟩ := (w3 r x req hx hr q).1 hq
    exact hN.global ((hh r d x hd hx).mem row a1) a2 a3
  obtain ⟨maps, hm⟩ := pull_small hg (small_new h hs) want hlw hrange
  obtain ⟨m1, m2⟩ := createPull_spec hg want hlw maps hm
  have hlm : maps.length = D.length := by rw [m1]; simp [lens2]
  have hlz : ((D.map Rk.own).zip maps).length = D.length := by rw [List.length_zip, List.length_map]; omega
  obtain ⟨coords, c1, c2, c3⟩ := N2C.forRanks_all (fun _ (y : List V3 × Map) => do
      let son ← forRanks (fun _ q => fetch gn (D.map Rk.own) q) 0 y.2.ghostIndex
      .ok (y.1 ++ son))
    (fun r y out => ∃ son, out = y.1 ++ son ∧ son.length = y.2.ghostIndex.length ∧
      ∀ (k : Nat) (q : Int), y.2.ghostIndex[k]? = some q → son[k]? = (D.map Rk.own).flatten[q.toNat]?) ((D.map Rk.own).zip maps) (by
      intro r y hy
      obtain ⟨y1, m⟩ := y
      obtain ⟨h1, h2⟩ := List.getElem?_zip_eq_some.1 hy
      have hF := Faithful.of_pull (m2 r m h2)
      obtain ⟨son, s1, s2, s3⟩ := fetch_all (rows := D.map Rk.own) (g := gn) hg m.ghostIndex (fun q hq => hF.loc.range q hq)
      exact ⟨y1 ++ son, by simp only [s1, Res.ok_bind], son, rfl, s2, s3⟩)
  refine ⟨want, maps, coords, w1, hm, c1, hlm, by omega, ?_⟩
  intro r x m c hx hmr hcr row hrow q hq h0
  obtain ⟨d, hd⟩ := at_some (l := D) (r := r) (by rw [← hl]; exact some_lt hx)
  obtain ⟨t, ht⟩ := at_some (l := want) (r := r) (by rw [w2]; exact some_lt hx)
  have hgl := hN.global ((hh r d x hd hx).mem row hrow) hq h0
  have hF := Faithful.of_pull (m2 r m hmr)
  have hown : (D.map Rk.own)[r]? = some d.own := by rw [List.getElem?_map, hd]; rfl
  obtain ⟨son, e, s2, s3⟩ := c3 r (d.own, m) c (List.getElem?_zip_eq_some.2 ⟨hown, hmr⟩) hcr
  have hz : q.toNat < (D.map Rk.own).flatten.length := by
    rw [List.length_flatten]
    have h1 := hgl.2
    have h2 := hgl.1
    show q.toNat < (lens2 D).sum
    omega
  obtain ⟨z, hz⟩ := at_some hz
  refine ⟨z, hz, ?_⟩
  have hread : ∀ v : Int, 0 ≤ v → LocalName (lens2 D) r m.ghostIndex q v → at64 c v = .ok z := by
    intro v hv hn
    have := held_row (rows := D.map Rk.own) hF hown s2 s3 h0 hv hn
    rw [at64, if_pos hv]
    refine (idx_ok_iff _ _ _).2 ?_
    rw [e, ← hz]
    exact this
  rcases hF.searchAppend q with ⟨h1, h2⟩ | ⟨h1, k, o, h2, h3⟩ | ⟨h1, h2, _⟩
  · exact ⟨_, _, h2, hread _ (by have := h1.2.1; omega) (Or.inl ⟨h1, rfl⟩)⟩
  · exact ⟨_, _, h3, hread _ (by omega) (Or.inr (Or.inl ⟨h1, k, h2, _, hF.size, rfl⟩))⟩
  · exfalso
    obtain ⟨req, r1, r2⟩ := (m2 r m hmr).req
    rw [ht] at r1; cases r1
    exact h2 ((r2.mem q).2 ((w3 r x t hx ht q).2 ⟨⟨row, hrow, hq, h0⟩, h1⟩))

/-! ### cells -/

theorem newNode_spec (hE : Elevatable per P ps X) (h : All per P ps X D) {rows : List (List (List Int))} (hr : RowsOf D rows)
    (hN : Named per P ps X D rows.flatten) {r : Nat} {d : Rk} (hd : D[r]? = some d) {held : List (List Int)} (hH : HeldRows ps rows.flatten r d held)
    {m : Map} {coords : List V3} (hS : Sees D held m coords) {l : Nat} {C : Cell} (hC : d.p.cells[l]? = some C) {k : Nat}
    (hk : k < (numElev C.type).toNat) {row c2c : List Int} (hrow : held[l]? = some row) (hc : d.y.st.prim.cell2cell[l]? = some c2c) {c : Choice}
    (hcp : c.at_ = nodePoint per P X C k) : ∃ v, row[k]? = some v ∧
      newNode m coords held c2c c.at_ v = .ok (number ps rows.flatten (before (cellLens ps) r + l) k) := by
  have hok := h.ok r d hd
  have hps := h.piece hd
  have hl := some_lt hC
  have hoi := owns_of_index hps hl
  have hCw : (whole ps)[before (cellLens ps) r + l]? = some C := by rw [whole_at hps hl]; exact hC
  have hnew : IsNew ps (before (cellLens ps) r + l) k C := ⟨hCw, hk⟩
  have hrow' : rows.flatten[before (cellLens ps) r + l]? = some row := by
    have := hH.at_ ((before (cellLens ps) r : Int) + l) l (by omega) (by omega) (Or.inl ⟨hoi, by omega⟩)
    rw [Int.toNat_natCast, hrow, show ((before (cellLens ps) r : Int) + l).toNat = before (cellLens ps) r + l by omega] at this
    exact this.symm
  obtain ⟨row0, gs, r1, r2, r3, r4⟩ := hok.row (lens2 D) hC
  rw [← hr.flat h hd hl, hrow'] at r1
  cases r1
  by_cases hf : First ps (before (cellLens ps) r + l) k C
  · obtain ⟨row1, q, r', d', f1, f2, f3, f4, _⟩ := hN.first _ k C hf
    rw [hrow'] at f1; cases f1
    refine ⟨q, f2, ?_⟩
    rw [newNode, if_pos (owns_range f4).1, number_eq hE hN hnew hf (List.Perm.refl _) hrow' f2]
  · obtain ⟨n, mc, k', E, e1, e2, e3, e4⟩ := (r4 k hk).2 hf
    refine ⟨_, e1, ?_⟩
    obtain ⟨gs', g1, g2, _, g4, g5⟩ := own_names hok.has hC
    rw [r3] at g1; cases g1
    have hc2 : d.y.st.prim.cell2cell[l]? = some (gs.map (nameOf d.y.st.cellMap)) := g2
    rw [hc] at hc2; cases hc2
    obtain ⟨hkeep, hgl⟩ := g5 mc (List.mem_of_getElem? e2)
    obtain ⟨v, v1, v2, v3⟩ := keeps_name hok.has hgl hkeep
    have hrowm : held[v]? = rows.flatten[mc]? := by
      have := hH.at_ mc v (by omega) (by omega) v2
      simpa using this
    obtain ⟨row2, q2, _, _, f1, f2, _, f4, _, _, f7⟩ := hN.first mc k' E e3
    rw [f1] at hrowm
    have hq2 := (owns_range f4).1
    rw [newNode, if_neg (by omega), show (-1 - (-1 - (n : Int))) = n by omega, at64_nat (y := (v : Int)) (by rw [List.getElem?_map, e2, ← v1]; rfl),
      Res.ok_bind, at64_nat hrowm, Res.ok_bind]
    have hseek : seek m coords c.at_ 0 (-1) row2 = .ok (0 + 1, q2) := by
      refine seek_one row2 k' 0 (-1) q2 f2 hq2 ?_
      intro k2 q hq h0
      obtain ⟨z, z1, z2⟩ := hS row2 (List.mem_of_getElem? hrowm) q (List.mem_of_getElem? hq) h0
      refine ⟨z, z2, ?_⟩
      have hlen := hN.row mc E row2 e3.1.1 f1
      have hnew2 : IsNew ps mc k2 E := ⟨e3.1.1, by rw [← hlen]; exact some_lt hq⟩
      have hf2 : First ps mc k2 E := by
        by_contra hnf
        have := hN.neg mc k2 E row2 q hnew2 hnf f1 hq
        omega
      obtain ⟨row3, q3, _, _, j1, j2, _, _, _, _, j7⟩ := hN.first mc k2 E hf2
      rw [f1] at j1; cases j1
      rw [hq] at j2; cases j2
      rw [z1] at j7
      rw [Option.some.inj j7, hcp, ← hE.same_point hnew e3.1 e4]
      exact near_iff hE hnew2 e3.1
    rw [hseek, Res.ok_bind, Res.assert_true _ rfl, Res.ok_bind, number_eq hE hN hnew e3 e4 f1 f2]

theorem newCell_spec (hE : Elevatable per P ps X) (h : All per P ps X D) {rows : List (List (List Int))} (hr : RowsOf D rows)
    (hN : Named per P ps X D rows.flatten) {gnO1 gn : GOM} (hg1 : Built (nodeLens ps) gnO1) (hg : Built (lens2 D) gn) {r : Nat} {d : Rk}
    (hd : D[r]? = some d) {held : List (List Int)} (hH : HeldRows ps rows.flatten r d held) {m : Map} {coords : List V3} (hS : Sees D held m coords)
    {l : Nat} {C : Cell} (hC : d.p.cells[l]? = some C) {cs : List Choice} (hcs : d.c[l]? = some cs) :
    newCell per gnO1 gn m coords held d.y l cs =
      .ok (elevCell per (renum ps D) (number ps rows.flatten) (before (cellLens ps) r + l) C) := by
  have hok := h.ok r d hd
  have hps := h.piece hd
  have hl := some_lt hC
  have hoi := owns_of_index hps hl
  have hIC := isCell_own hps hC
  have hmem : C ∈ whole ps := mem_whole (List.mem_of_getElem? hps) (List.mem_of_getElem? hC)
  have hnm : LocalName (cellLens ps) r d.y.st.cellMap.ghostIndex ((before (cellLens ps) r : Int) + l) l := Or.inl ⟨hoi, by omega⟩
  obtain ⟨f1, f2, f3⟩ := keeps_cell hok.has hE.mesh hIC (Or.inl hoi) hnm
  obtain ⟨gs, _, g2, _⟩ := own_names hok.has hC
  obtain ⟨row, gs', r1, r2, -⟩ := hok.row (lens2 D) hC
  have hrow : held[l]? = some row := by
    have := hH.at_ ((before (cellLens ps) r : Int) + l) l (by omega) (by omega) hnm
    rw [Int.toNat_natCast, show ((before (cellLens ps) r : Int) + l).toNat = before (cellLens ps) r + l by omega, hr.flat h hd hl, r1] at this
    exact this
  obtain ⟨c1, gs2, _, c3⟩ := hok.found.row l C cs hC hcs
  have hold : forRanks (fun _ v => oldNode gnO1 gn d.y.st.nodeMap v) 0 (C.nodes.map (nameOf d.y.st.nodeMap)) = .ok (C.nodes.map (renum ps D)) := by
    refine oldNodes_spec h hg1 hg (by simp) ?_
    intro k q v hq hv
    rw [List.getElem?_map, hq] at hv
    cases hv
    exact ⟨hE.global hmem (List.mem_of_getElem? hq), (f3 q (List.mem_of_getElem? hq)).2.2.2⟩
  have hnew : forRanks (fun k (c : Choice) => do
      let v ← idx row k
      newNode m coords held (gs.map (nameOf d.y.st.cellMap)) c.at_ v) 0 cs =
        .ok ((List.range (numElev C.type).toNat).map (number ps rows.flatten (before (cellLens ps) r + l))) := by
    rw [forRanks_ok]
    refine ⟨by simp [c1], ?_⟩
    intro k c hc
    have hk : k < (numElev C.type).toNat := by rw [← c1]; exact some_lt hc
    refine ⟨_, by rw [List.getElem?_map, List.getElem?_range hk]; rfl, ?_⟩
    obtain ⟨v, v1, v2⟩ := newNode_spec hE h hr hN hd hH hS hC hk hrow g2 (c3 k c hc).at_
    rw [Nat.zero_add, (idx_ok_iff _ _ _).2 v1, Res.ok_bind]
    exact v2
  have hbits : per = true → cs.map (·.bits) = (List.range (numElev C.type).toNat).map (fun k => commonBits (spanBits C k)) := by
    intro hper
    refine List.ext_getElem? fun k => ?_
    rw [List.getElem?_map, List.getElem?_map]
    by_cases hk : k < cs.length
    · have hc := List.getElem?_eq_getElem hk
      rw [hc, List.getElem?_range (by omega), Option.map_some, Option.map_some, (c3 k _ hc).bits, if_pos hper]
    · rw [List.getElem?_eq_none (by omega), List.getElem?_eq_none (by simp; omega)]; rfl
  unfold newCell
  rw [(idx_ok_iff _ _ _).2 f1, Res.ok_bind, (idx_ok_iff _ _ _).2 f2, Res.ok_bind, (idx_ok_iff _ _ _).2 g2, Res.ok_bind, (idx_ok_iff _ _ _).2 hrow,
    Res.ok_bind, hold, Res.ok_bind, hnew, Res.ok_bind]
  unfold elevCell
  congr 2
  cases hp : per with
  | false => rfl
  | true => simp only [if_true]; rw [hbits hp]

end DNDSR.Elev
