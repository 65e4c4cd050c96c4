import Verif.Proof.Node2CellRun

/-!
# C25: inverting cell-to-node

`node2Cell` is `GeneralCell2NodeToNode2Cell` run by all ranks together, with the exchange of the ghost rows through the
array transformer.  For any number of ranks, any distribution of nodes and cells, rows of any length with or without
repeated entries, any iteration order of the hash containers and any order of delivery: the result lists, for every
node, exactly the cells that refer to it, each once.
-/

namespace DNDSR.N2C

open DNDSR.Arr hiding Array
open DNDSR.IMap DNDSR.Tran DNDSR.MeshAdj DNDSR.Part

/-- every entry of every row is an existing node -/
def InRange (nodeLens : List Nat) (cells : List (List (List Int))) : Prop :=
  ∀ rows ∈ cells, ∀ row ∈ rows, ∀ q ∈ row, 0 ≤ q ∧ q < nodeLens.sum

/-- **C25**. If every entry refers to an existing node and there are fewer than `INT_MAX` entries, the inversion
returns.  Row `i` of rank `r` holds, each once, exactly the cells that refer to the `i`-th node of rank `r`. -/
theorem node2cell_exact (h : Hash) (hf : Fair h) (u : Bool) (nodeLens : List Nat) (cells : List (List (List Int)))
    (hn : nodeLens.length = cells.length) (order : List (Nat × Nat)) (ho : AllPairs cells.length order)
    (hr : InRange nodeLens cells) (hb : entries cells < int32Max) :
    ∃ out, node2Cell h u nodeLens cells order = .ok out ∧ out.length = nodeLens.length ∧
      ∀ (r n : Nat) (a : Arr.Array Int), nodeLens[r]? = some n → out[r]? = some a →
        ∃ rows, Represents tyAdj a ⟨rows, 0⟩ ∧ rows.length = n ∧
          ∀ (i : Nat) (row : List Int), rows[i]? = some row → row.Nodup ∧
            ∀ c, c ∈ row ↔ Refers cells c ((before nodeLens r : Int) + i) := by
  obtain ⟨gn, hgn⟩ := built_exists nodeLens
  obtain ⟨gc, hgc⟩ := built_exists (cells.map List.length)
  -- the scans
  obtain ⟨scans, hscans, hsl, hsc⟩ := forRanks_all (fun r rows => scanCells gn gc r rows.length 0 ⟨[], []⟩ rows)
    (fun r rows s => s.record = insAll [] (inc (before (cells.map List.length) r) 0 rows) ∧
      (∀ q, q ∈ s.ghosts ↔ (∃ row ∈ rows, q ∈ row) ∧ ¬ Owns nodeLens r q) ∧
      s.ghosts.length ≤ (rows.map List.length).sum) cells (by
    intro r rows hrow
    obtain ⟨s, e1, e2, e3, e4⟩ := (scanCells_eq hgn hgc (r := r) (n := rows.length) (by rw [List.getElem?_map, hrow]; rfl) rows 0 ⟨[], []⟩
      (by omega)).1 (hr rows (List.mem_of_getElem? hrow))
    exact ⟨s, e1, e2, fun q => by rw [e3]; simp, by simpa using e4⟩)
  have hsc' : ∀ (r : Nat) (s : Scan), scans[r]? = some s → ∃ rows, cells[r]? = some rows ∧
      s.record = insAll [] (inc (before (cells.map List.length) r) 0 rows) ∧
      (∀ q, q ∈ s.ghosts ↔ (∃ row ∈ rows, q ∈ row) ∧ ¬ Owns nodeLens r q) ∧
      s.ghosts.length ≤ (rows.map List.length).sum := by
    intro r s hs
    have := (List.getElem?_eq_some_iff.1 hs).1
    have hc : cells[r]? = some (cells[r]'(by omega)) := by simp
    exact ⟨_, hc, hsc r _ s hc hs⟩
  have hin : ∀ (r : Nat) (s : Scan) (rows : List (List Int)), scans[r]? = some s → cells[r]? = some rows →
      WF s.record ∧ (∀ q c, In s.record q c ↔ ∃ (k : Nat) (row : List Int), rows[k]? = some row ∧ q ∈ row ∧
        c = (before (cells.map List.length) r : Int) + k) ∧ recSize s.record ≤ (rows.map List.length).sum := by
    intro r s rows hs hc
    obtain ⟨rows', h1, h2, _, _⟩ := hsc' r s hs
    rw [hc] at h1; cases h1
    rw [h2]
    refine ⟨insAll_wf _ wf_nil, ?_, ?_⟩
    · intro q c
      rw [insAll_in, inc_mem]
      simp [In, recGet]
    · have := insAll_size (inc (before (cells.map List.length) r) 0 rows) []
      rw [inc_length] at this
      simpa [recSize] using this
  have hlocal : ∀ (r : Nat) (s : Scan), scans[r]? = some s → ∀ q c, In s.record q c → Refers cells c q := by
    intro r s hs q c hin'
    obtain ⟨rows, hc, _⟩ := hsc' r s hs
    obtain ⟨k, row, e1, e2, e3⟩ := ((hin r s rows hs hc).2.1 q c).1 hin'
    exact ⟨r, k, row, ⟨rows, hc, e1⟩, e3, e2⟩
  have hset : ∀ (m : Rec), WF m → (∀ q c, In m q c → Refers cells c q) → ∀ k s, recGet m k = some s →
      (h.set s).length < int32Max ∧ s.Nodup := by
    intro m hw hm k s hk
    have hnd := (hw.sets _ (recGet_mem hk)).1
    have := refers_length hnd (fun c hc => hm k c ⟨s, hk, hc⟩)
    exact ⟨by rw [(hf.set s).length_eq]; exact Nat.lt_of_le_of_lt this hb, hnd⟩
  -- the fathers
  obtain ⟨fathers, hfathers, hfl, hfa⟩ := forRanks_all (fun r (x : Nat × Scan) => do
      let rows ← ownRows h gn r x.1 x.2.record 0 x.1
      fill x.1 rows) (fun _ x a => a.size = x.1) (nodeLens.zip scans) (by
    intro r x hx
    rw [List.getElem?_zip_eq_some] at hx
    obtain ⟨rows, hc, _⟩ := hsc' r _ hx.2
    obtain ⟨rs, e1, e2, _⟩ := ownFill_eq h hgn hx.1 x.2.record (fun k s hk =>
      (hset _ (hin r _ rows hx.2 hc).1 (hlocal r _ hx.2) k s hk).1)
    exact ⟨_, e1, by simpa [rowArr] using e2⟩)
  have hflens : fathers.map (·.size) = nodeLens := by
    apply List.ext_getElem?
    intro r
    rw [List.getElem?_map]
    by_cases hrl : r < nodeLens.length
    · have hfr : fathers[r]? = some (fathers[r]'(by rw [hfl, List.length_zip]; omega)) := by simp
      rw [hfr, List.getElem?_eq_getElem hrl]
      have := hfa r (nodeLens[r], scans[r]'(by omega)) _ (by
        rw [List.getElem?_zip_eq_some]; exact ⟨by simp, by simp⟩) hfr
      simp only [Option.map_some, this]
    · rw [List.getElem?_eq_none (by rw [hfl, List.length_zip]; omega), List.getElem?_eq_none (by omega)]; rfl
  -- the first mapping
  have hgl : (scans.map (·.ghosts)).length = nodeLens.length := by rw [List.length_map]; omega
  have hgsum : ((scans.map (·.ghosts)).map List.length).sum ≤ entries cells := by
    rw [entries]
    apply sum_le_sum
    · simp [hsl]
    · intro i x y hx hy
      rw [List.getElem?_map, List.getElem?_map] at hx
      rw [List.getElem?_map] at hy
      cases hs : scans[i]? with
      | none => rw [hs] at hx; cases hx
      | some s =>
        obtain ⟨rows, h1, _, _, h4⟩ := hsc' i s hs
        rw [hs] at hx; rw [h1] at hy
        cases hx; cases hy
        exact h4
  have hi : (int32Max : Int) = Defines.intMax 32 := by decide
  obtain ⟨maps, hmaps⟩ := ghost_map_exists hgn (scans.map (·.ghosts)) hgl (by
    intro req hreq q hq
    obtain ⟨s, hs, rfl⟩ := List.mem_map.1 hreq
    obtain ⟨r, hr1, rfl⟩ := List.mem_iff_getElem.1 hs
    obtain ⟨rows, h1, _, h3, _⟩ := hsc' r _ (List.getElem?_eq_getElem hr1)
    obtain ⟨⟨row, h5, h6⟩, _⟩ := (h3 q).1 hq
    exact hr rows (List.mem_of_getElem? h1) row h5 q h6) (by omega)
  have hmo := maps_of hgn _ hgl maps hmaps
  have hlk := hmo.links
  have hml : maps.length = cells.length := by rw [hlk.len]; omega
  -- the sons
  obtain ⟨sons, hsons, hsonl, hso⟩ := forRanks_all (fun _ (x : Map × Scan) => do
      let rows ← ghostRows h x.1 (h.map x.2.record)
      fill x.1.ghostIndex.length rows) (fun r x a => ∃ rows, a = rowArr rows ∧ rows.length = x.1.ghostIndex.length ∧
        Reachable 0 tyAdj (rowArr rows) ∧ (rows.map List.length).sum ≤ recSize x.2.record ∧
        ∀ (j : Nat) (k : Int), x.1.ghostIndex[j]? = some k → ∃ s, recGet x.2.record k = some s ∧ rows[j]? = some (h.set s))
      (maps.zip scans) (by
    intro r x hx
    rw [List.getElem?_zip_eq_some] at hx
    obtain ⟨rows, hc, _, h3, _⟩ := hsc' r _ hx.2
    obtain ⟨hw, hi', hz⟩ := hin r _ rows hx.2 hc
    have hreq : (scans.map (·.ghosts))[r]? = some x.2.ghosts := by rw [List.getElem?_map, hx.2]; rfl
    obtain ⟨k1, k2, _⟩ := ghost_list_spec hgn _ hgl maps hmaps r x.1 _ hx.1 hreq
    have hsr := ghost_searchRank_spec hgn _ hgl maps hmaps r x.1 _ hx.1 hreq
    obtain ⟨rs, e1, e2, e3, e4, e5⟩ := ghostFill_eq hf (mp := x.1) (Owns nodeLens r)
      (fun q hq => ⟨_, ((hsr q).1 hq).1⟩)
      (fun q hq k hk => by
        obtain ⟨o, hoq⟩ := hlk.owner hx.1 k q hk
        exact ⟨o, ((hsr q).2.1 o k hq hk hoq).1⟩) hw
      (by
        intro q
        rw [k2, h3, hw.key_iff]
        constructor
        · rintro ⟨⟨row, a1, a2⟩, a3⟩
          obtain ⟨k, hk⟩ := List.mem_iff_getElem?.1 a1
          exact ⟨⟨_, (hi' q _).2 ⟨k, row, hk, a2, rfl⟩⟩, a3⟩
        · rintro ⟨⟨c, a1⟩, a3⟩
          obtain ⟨k, row, b1, b2, _⟩ := (hi' q c).1 a1
          exact ⟨⟨row, List.mem_of_getElem? b1, b2⟩, a3⟩)
      (by unfold List.Nodup; exact k1.imp (fun h => by omega))
      (by
        have := part_le_sum (fun rows : List (List Int) => (rows.map List.length).sum) cells rows (List.mem_of_getElem? hc)
        unfold entries at hb
        omega)
    exact ⟨_, e1, rs, rfl, e2, e3, e4, e5⟩)
  have hson : ∀ (r : Nat) (a : Arr.Array Int), sons[r]? = some a → ∃ (m : Map) (s : Scan) (rows : List (List Int)), maps[r]? = some m ∧
      scans[r]? = some s ∧ a = rowArr rows ∧ rows.length = m.ghostIndex.length ∧
      Reachable 0 tyAdj (rowArr rows) ∧ (rows.map List.length).sum ≤ recSize s.record ∧
      ∀ (j : Nat) (k : Int), m.ghostIndex[j]? = some k → ∃ t, recGet s.record k = some t ∧ rows[j]? = some (h.set t) := by
    intro r a ha
    have hl := (List.getElem?_eq_some_iff.1 ha).1
    rw [hsonl, List.length_zip] at hl
    have h1 : maps[r]? = some (maps[r]'(by omega)) := by simp
    have h2 : scans[r]? = some (scans[r]'(by omega)) := by simp
    obtain ⟨rows, e⟩ := hso r (maps[r]'(by omega), scans[r]'(by omega)) a (by
      rw [List.getElem?_zip_eq_some]; exact ⟨h1, h2⟩) ha
    exact ⟨_, _, rows, h1, h2, e⟩
  have hsonl' : sons.length = cells.length := by rw [hsonl, List.length_zip]; omega
  have hsonget : ∀ r, r < cells.length → ∃ a, sons[r]? = some a := fun r hrl => ⟨sons[r]'(by omega), by simp⟩
  have hsonlens : sons.map (·.size) = maps.map (fun m => m.ghostIndex.length) := by
    apply List.ext_getElem?
    intro r
    rw [List.getElem?_map, List.getElem?_map]
    by_cases hrl : r < cells.length
    · obtain ⟨a, ha⟩ := hsonget r hrl
      obtain ⟨m, s, rows, e1, _, rfl, e4, _⟩ := hson r a ha
      rw [ha, e1]; simp [rowArr, e4]
    · rw [List.getElem?_eq_none (by omega), List.getElem?_eq_none (by omega)]; rfl
  -- the second mapping
  obtain ⟨gs, hgs⟩ := built_exists (sons.map (·.size))
  have hpush : (sons.zip maps).map (fun x => ((List.range x.1.size).map Int.ofNat, x.2.ghostStart)) =
      maps.map (fun m => ((List.range m.ghostIndex.length).map Int.ofNat, m.ghostStart)) := by
    apply List.ext_getElem?
    intro r
    rw [List.getElem?_map, List.getElem?_map]
    by_cases hrl : r < cells.length
    · obtain ⟨a, ha⟩ := hsonget r hrl
      obtain ⟨m, s, rows, e1, _, rfl, e4, _⟩ := hson r a ha
      have : (sons.zip maps)[r]? = some (rowArr rows, m) := by rw [List.getElem?_zip_eq_some]; exact ⟨ha, e1⟩
      rw [this, e1]; simp [rowArr, e4]
    · rw [List.getElem?_eq_none (by rw [List.length_zip]; omega), List.getElem?_eq_none (by omega)]; rfl
  generalize hpe : maps.map (fun m => ((List.range m.ghostIndex.length).map Int.ofNat, m.ghostStart)) = push at hpush
  generalize hsle : sons.map (·.size) = sonLens at hgs hsonlens
  have hsll : sonLens.length = cells.length := by rw [hsonlens, List.length_map, hml]
  have hpl : push.length = sonLens.length := by rw [← hpe, hsonlens]; simp
  have hpm : ∀ (r : Nat) (p : List Int × List Nat), push[r]? = some p → ∃ m, maps[r]? = some m ∧
      p = ((List.range m.ghostIndex.length).map Int.ofNat, m.ghostStart) := by
    intro r p hp
    rw [← hpe, List.getElem?_map] at hp
    obtain ⟨m, hm, rfl⟩ := Option.map_eq_some_iff.1 hp
    exact ⟨m, hm, rfl⟩
  have hst : ∀ p ∈ push, ∃ sizes : List Nat, sizes.length = sonLens.length ∧ p.2 = plainStarts sizes ∧ p.1.length = sizes.sum := by
    intro p hp
    obtain ⟨r, hrl, rfl⟩ := List.mem_iff_getElem.1 hp
    obtain ⟨m, hm, he⟩ := hpm r _ (List.getElem?_eq_getElem hrl)
    rw [he]
    have hgl' := hlk.gsLen hm
    refine ⟨m.ghostSizes, by rw [hgl']; omega, hlk.gst hm, ?_⟩
    have hlast := hlk.start_last hm
    have h1 := hlast.1
    rw [List.getLast?_eq_getElem?, hlast.2, Nat.add_sub_cancel, hlk.gst hm, plainStarts_get _ _ (by omega)] at h1
    simp only [List.length_map, List.length_range]
    rw [← Option.some.inj h1, List.take_of_length_le (by omega)]
  have hz : ∀ p ∈ push, p.2[0]? = some 0 := by
    intro p hp
    obtain ⟨sizes, _, e, _⟩ := hst p hp
    rw [e, plainStarts_get _ _ (by omega)]; simp
  have hpv : PushValid sonLens push := by
    intro r p hp l hl
    obtain ⟨m, hm, rfl⟩ := hpm r p hp
    obtain ⟨j, hj, rfl⟩ := List.mem_map.1 hl
    refine ⟨by simp, m.ghostIndex.length, by rw [hsonlens, List.getElem?_map, hm]; rfl, ?_⟩
    have := List.mem_range.1 hj
    simp only [Int.ofNat_eq_natCast]; omega
  obtain ⟨maps2, hmaps2⟩ := createPush_total hgs push hpl hpv hst
  have hlk2 := pushMaps_links hgs push hpl hz hpv maps2 hmaps2
  have hml2 : maps2.length = cells.length := by rw [hlk2.len]; omega
  -- the exchange
  have hsetup : Setup 0 tyAdj sonLens ⟨sons, sons.map (fun _ => Arr.Array.empty)⟩ := by
    refine ⟨by decide, by simp [hsll, hsonl'], by simp [hsll, hsonl'], ?_, ?_, ?_⟩
    · intro r fa hfa'
      obtain ⟨m, s, rows, _, _, rfl, _, e5, _⟩ := hson r fa hfa'
      refine ⟨e5, ?_⟩
      rw [← hsle, List.getElem?_map, hfa']; rfl
    · intro r so hso'
      have := List.mem_of_getElem? hso'
      simp only [List.mem_map] at this
      obtain ⟨_, _, rfl⟩ := this
      exact empty_reachable 0 tyAdj
    · intro hne; exact absurd tyAdj_layout hne
  -- rows of the sons as a function
  let sonRow : Nat → Nat → List Int := fun s j => ((sons[s]?.map (rowsOf tyAdj)).getD [])[j]?.getD []
  have hsonRow : ∀ (s j : Nat) (rows : List (List Int)) (row : List Int), sons[s]? = some (rowArr rows) → rows[j]? = some row →
      sonRow s j = row := by
    intro s j rows row h1 h2
    simp only [sonRow, h1, Option.map_some, Option.getD_some, rowArr_rows, h2]
  have hsonAt : ∀ (s j : Nat), s < cells.length → ∀ n, sonLens[s]? = some n → j < n →
      ∃ rows row, sons[s]? = some (rowArr rows) ∧ Reachable 0 tyAdj (rowArr rows) ∧ rows[j]? = some row := by
    intro s j hs n hns hj
    obtain ⟨a, ha⟩ := hsonget s hs
    obtain ⟨m, sc, rows, e1, _, rfl, e4, e5, _⟩ := hson s a ha
    rw [hsonlens, List.getElem?_map, e1] at hns
    simp only [Option.map_some, Option.some.injEq] at hns
    exact ⟨rows, rows[j]'(by omega), ha, e5, by simp⟩
  obtain ⟨L, hL⟩ : ∃ L : Int → Nat, ∀ (r : Nat) (q : Int), Owns sonLens r q → L q = (sonRow r (q - before sonLens r).toNat).length := by
    apply Classical.axiomOfChoice (r := fun (q : Int) (n : Nat) => ∀ (r : Nat), Owns sonLens r q → n = (sonRow r (q - before sonLens r).toNat).length) _ |>.imp
    · intro L hL r q hq; exact hL q r hq
    · intro q
      by_cases hx : ∃ r, Owns sonLens r q
      · obtain ⟨r, hrq⟩ := hx
        exact ⟨(sonRow r (q - before sonLens r).toNat).length, fun r' hr' => by rw [owns_unique hrq hr']⟩
      · exact ⟨0, fun r' hr' => absurd ⟨r', hr'⟩ hx⟩
  have hslot : IsSlotLen tyAdj sonLens sons L := by
    intro r fa q hfa' hq
    rw [if_pos tyAdj_layout, hL r q hq]
    obtain ⟨q1, q2, q3⟩ := hq
    obtain ⟨rows, row, e1, e2, e3⟩ := hsonAt r (q - before sonLens r).toNat (by omega) sonLens[r] (by simp) (by omega)
    rw [hfa'] at e1; cases e1
    rw [hsonRow r _ rows row hfa' e3]
    have hI := reachable_inv 0 (by decide) e2
    have hlt := (List.getElem?_eq_some_iff.1 e3).1
    obtain ⟨row', a1, a2⟩ := rowSize_eq hI (q - before sonLens r).toNat (by simpa [rowArr] using hlt)
    rw [rowArr_rows, e3] at a1; cases a1
    rw [ownRow, show q - (before sonLens r : Int) = ((q - before sonLens r).toNat : Int) by omega]
    exact a2
  have hrange : ∀ (r s j : Nat), r < cells.length → (s, j) ∈ recvd maps r → s < cells.length ∧ ∃ n, sonLens[s]? = some n ∧ j < n ∧
      Owns sonLens s ((before sonLens s : Int) + j) := by
    intro r s j hrl hmem
    obtain ⟨m, q, h1, h2, _⟩ := (recvd_mem hlk (by omega) s j).1 hmem
    have hsl' := (List.getElem?_eq_some_iff.1 h1).1
    have hj := (List.getElem?_eq_some_iff.1 h2).1
    have hsn : sonLens[s]? = some m.ghostIndex.length := by rw [hsonlens, List.getElem?_map, h1]; rfl
    obtain ⟨a1, a2⟩ := List.getElem?_eq_some_iff.1 hsn
    exact ⟨by omega, _, hsn, hj, a1, by omega, by omega⟩
  obtain ⟨w1, types, hct⟩ := (createTypes_total_links u hlk2 _ hsetup).2 L hslot (by
    intro r m2 hm2
    have hrl := (List.getElem?_eq_some_iff.1 hm2).1
    have e := recvd_second hgs hlk hsonlens push hpe.symm hz hmaps2 hm2
    have h1 : (m2.ghostIndex.map L).sum = ((recvd maps r).map (fun x => (sonRow x.1 x.2).length)).sum := by
      rw [e, List.map_map]
      congr 1
      apply List.map_congr_left
      intro x hx
      obtain ⟨_, _, _, _, hown⟩ := hrange r x.1 x.2 (by omega) hx
      simp only [Function.comp_apply]
      rw [hL x.1 _ hown]
      congr 2; omega
    rw [h1]
    refine Nat.lt_of_le_of_lt (Nat.le_trans (recvd_sum maps r (fun s j => (sonRow s j).length)) ?_) hb
    rw [entries]
    apply sum_le_sum
    · simp [hml]
    · intro s x y hx hy
      rw [List.getElem?_map, List.getElem?_zipIdx] at hx
      rw [List.getElem?_map] at hy
      cases hms : maps[s]? with
      | none => rw [hms] at hx; cases hx
      | some ms =>
        have hsl' := (List.getElem?_eq_some_iff.1 hms).1
        obtain ⟨a, ha⟩ := hsonget s (by omega)
        obtain ⟨m, sc, rows, e1, e1', rfl, e4, e5, e6, _⟩ := hson s a ha
        rw [hms] at e1; cases e1
        obtain ⟨crows, hc, _⟩ := hsc' s sc e1'
        have hz3 := (hin s sc crows e1' hc).2.2
        rw [hms] at hx; rw [hc] at hy
        cases hx; cases hy
        simp only [Nat.zero_add]
        have : (List.range ms.ghostIndex.length).map (fun j => (sonRow s j).length) = rows.map List.length := by
          apply List.ext_getElem?
          intro j
          rw [List.getElem?_map, List.getElem?_map]
          by_cases hj : j < ms.ghostIndex.length
          · have hrow : rows[j]? = some (rows[j]'(by omega)) := by simp
            rw [List.getElem?_range hj, hrow]
            simp only [Option.map_some, hsonRow s j rows _ ha hrow]
          · rw [List.getElem?_eq_none (by simpa using hj), List.getElem?_eq_none (by omega)]; rfl
        rw [this]; omega)
  obtain ⟨_, hpull⟩ := setup_pull_links u hlk2 _ hsetup order (by rw [hsll]; exact ho)
  obtain ⟨w2, p1, p2, p3, p4, p5⟩ := hpull w1 types hct
  have hwfl : w2.fathers.length = cells.length := by
    rw [p2]
    have := createTypes_wired hlk2 (setup_ready hsetup) hct
    rw [this.fl]; omega
  -- the merge
  obtain ⟨out, hout, hol, hres⟩ := forRanks_all (fun r (x : (Nat × Scan) × Map × Arr.Array Int × Arr.Array Int) => do
      let mp := x.2.1
      let son := x.2.2.1
      let past := x.2.2.2
      Res.assert (mp.ghostIndex.length = son.size)
      Res.assert (mp.pushingIndexGlobal.length = past.size)
      let m ← mergePast mp.pushingIndexGlobal past x.1.2.record 0 past.size
      let rows ← ownRows h gn r x.1.1 m 0 x.1.1
      fill x.1.1 rows)
    (fun r x a => ∃ rows, Represents tyAdj a ⟨rows, 0⟩ ∧ rows.length = x.1.1 ∧
          ∀ (i : Nat) (row : List Int), rows[i]? = some row → row.Nodup ∧
            ∀ c, c ∈ row ↔ Refers cells c ((before nodeLens r : Int) + i))
    ((nodeLens.zip scans).zip (maps.zip (w2.fathers.zip w2.sons))) (by
    intro r x hx
    rw [List.getElem?_zip_eq_some, List.getElem?_zip_eq_some, List.getElem?_zip_eq_some, List.getElem?_zip_eq_some] at hx
    obtain ⟨⟨x1, x2⟩, x3, x4, x5⟩ := hx
    have hrl : r < cells.length := by have := (List.getElem?_eq_some_iff.1 x3).1; omega
    obtain ⟨a, ha⟩ := hsonget r hrl
    obtain ⟨m, sc, rows, e1, e1', rfl, e4, e5, e6, e7⟩ := hson r a ha
    rw [x3] at e1; cases e1
    rw [x2] at e1'; cases e1'
    obtain ⟨fa', f1, f2, _⟩ := p4 r _ ha
    rw [p2, f1] at x4; cases x4
    obtain ⟨m2, hm2⟩ : ∃ m2, maps2[r]? = some m2 := ⟨maps2[r]'(by omega), by simp⟩
    obtain ⟨s1, s2⟩ := p5 r m2 x.2.2.2 hm2 x5
    have hg2 := recvd_second hgs hlk hsonlens push hpe.symm hz hmaps2 hm2
    have hpg := recvd_global hmo x3
    have hmerge := mergePast_eq x.2.1.pushingIndexGlobal x.2.2.2
      ((recvd maps r).map (fun y => (ghostOf maps y.1 y.2, sonRow y.1 y.2))) 0 x.1.2.record (by
        intro j y hy
        rw [List.getElem?_map] at hy
        obtain ⟨⟨s, k⟩, hsk, rfl⟩ := Option.map_eq_some_iff.1 hy
        rw [Nat.zero_add]
        refine ⟨by rw [hpg, List.getElem?_map, hsk]; rfl, ?_⟩
        obtain ⟨t1, n, t2, t3, t4⟩ := hrange r s k hrl (List.mem_of_getElem? hsk)
        obtain ⟨rws, row, u1, u2, u3⟩ := hsonAt s k t1 n t2 t3
        have hsame := s2 j ((before sonLens s : Int) + k) s _ (by rw [hg2, List.getElem?_map, hsk]; rfl) t4 u1
        rw [ownRow, show ((before sonLens s : Int) + k - before sonLens s) = (k : Int) by omega] at hsame
        simp only
        rw [hsonRow s k rws row u1 u3]
        exact readRow_eq u2 u3 hsame)
    rw [List.length_map] at hmerge
    have hps : x.2.2.2.size = (recvd maps r).length := by rw [s1, hg2, List.length_map]
    generalize hps' : ((((recvd maps r).map (fun y => (ghostOf maps y.1 y.2, sonRow y.1 y.2))).map
      (fun x => x.2.map (fun c => (x.1, c)))).flatten) = pairs at hmerge
    obtain ⟨crows, hc, _⟩ := hsc' r _ x2
    obtain ⟨hw, hi', _⟩ := hin r _ crows x2 hc
    have hpairs : ∀ q c, (q, c) ∈ pairs ↔ ∃ (s j : Nat) (ms : Map) (scs : Scan), maps[s]? = some ms ∧ scans[s]? = some scs ∧
        ms.ghostIndex[j]? = some q ∧ Owns nodeLens r q ∧ In scs.record q c := by
      intro q c
      rw [← hps', List.mem_flatten]
      have hson2 : ∀ (s j : Nat) (ms : Map) (q' : Int), maps[s]? = some ms → ms.ghostIndex[j]? = some q' →
          ∃ scs, scans[s]? = some scs ∧ ∀ c, c ∈ sonRow s j ↔ In scs.record q' c := by
        intro s j ms q' hms hj
        have hsl' := (List.getElem?_eq_some_iff.1 hms).1
        obtain ⟨a, ha'⟩ := hsonget s (by omega)
        obtain ⟨m', sc', rows', g1, g2, rfl, _, _, _, g7⟩ := hson s a ha'
        rw [hms] at g1; cases g1
        obtain ⟨t, t1, t2⟩ := g7 j q' hj
        refine ⟨sc', g2, ?_⟩
        intro c
        rw [hsonRow s j rows' _ ha' t2, (hf.set t).mem_iff]
        constructor
        · intro hc'; exact ⟨t, t1, hc'⟩
        · rintro ⟨t', a1, a2⟩; rw [t1] at a1; cases a1; exact a2
      constructor
      · rintro ⟨l, hl, hmem⟩
        rw [List.map_map] at hl
        obtain ⟨⟨s, j⟩, hsj, rfl⟩ := List.mem_map.1 hl
        simp only [Function.comp_apply, List.mem_map, Prod.mk.injEq] at hmem
        obtain ⟨c', hc', rfl, rfl⟩ := hmem
        obtain ⟨ms, q', h1, h2, h3⟩ := (recvd_mem hlk (by omega) s j).1 hsj
        rw [ghostOf_eq h1 h2]
        obtain ⟨scs, h4, h5⟩ := hson2 s j ms q' h1 h2
        exact ⟨s, j, ms, scs, h1, h4, h2, h3, (h5 c').1 hc'⟩
      · rintro ⟨s, j, ms, scs, h1, h4, h2, h3, h6⟩
        obtain ⟨scs', h4', h5⟩ := hson2 s j ms q h1 h2
        rw [h4] at h4'; cases h4'
        refine ⟨(sonRow s j).map (fun c => (q, c)), ?_, List.mem_map.2 ⟨c, (h5 c).2 h6, rfl⟩⟩
        rw [List.map_map]
        refine List.mem_map.2 ⟨(s, j), (recvd_mem hlk (by omega) s j).2 ⟨ms, q, h1, h2, h3⟩, ?_⟩
        simp only [Function.comp_apply, ghostOf_eq h1 h2]
    have hfin1 : ∀ q c, In (insAll x.1.2.record pairs) q c → Refers cells c q := by
      intro q c hq
      rcases (insAll_in _ _ _ _).1 hq with hq | hq
      · exact hlocal r _ x2 q c hq
      · obtain ⟨s, j, ms, scs, h1, h2, _, _, h5⟩ := (hpairs q c).1 hq
        exact hlocal s scs h2 q c h5
    have hfin2 : ∀ q c, Owns nodeLens r q → Refers cells c q → In (insAll x.1.2.record pairs) q c := by
      rintro q c hoq ⟨s, k, row, ⟨crs, b1, b2⟩, b3, b4⟩
      rw [insAll_in]
      by_cases hsr : s = r
      · subst hsr
        rw [hc] at b1; cases b1
        exact Or.inl ((hi' q c).2 ⟨k, row, b2, b4, b3⟩)
      · right
        have hsl' := (List.getElem?_eq_some_iff.1 b1).1
        have hscs : scans[s]? = some (scans[s]'(by omega)) := by simp
        have hms : maps[s]? = some (maps[s]'(by omega)) := by simp
        obtain ⟨crs', c1, _, c3, _⟩ := hsc' s _ hscs
        rw [b1] at c1; cases c1
        have hgm := (c3 q).2 ⟨⟨row, List.mem_of_getElem? b2, b4⟩, fun h' => hsr (owns_unique h' hoq)⟩
        have hreq : (scans.map (·.ghosts))[s]? = some (scans[s]'(by omega)).ghosts := by rw [List.getElem?_map, hscs]; rfl
        obtain ⟨_, k2, _⟩ := ghost_list_spec hgn _ hgl maps hmaps s _ _ hms hreq
        obtain ⟨j, hj⟩ := List.mem_iff_getElem?.1 ((k2 q).2 hgm)
        exact (hpairs q c).2 ⟨s, j, _, _, hms, hscs, hj, hoq, ((hin s _ crs hscs b1).2.1 q c).2 ⟨k, row, b2, b4, b3⟩⟩
    have hwf := insAll_wf pairs hw
    obtain ⟨rs, o1, o2, o3, o4⟩ := ownFill_eq h hgn x1 (insAll x.1.2.record pairs) (fun k s hk => (hset _ hwf hfin1 k s hk).1)
    refine ⟨rowArr rs, ?_, rs, rowArr_represents o3, o2, ?_⟩
    · simp only
      rw [Res.assert_true _ (by rw [f2]; simp [rowArr, e4]), Res.ok_bind, Res.assert_true _ (by rw [hps, hpg, List.length_map]),
        Res.ok_bind, hps, hmerge, Res.ok_bind]
      exact o1
    · intro i row hrow
      have hil := (List.getElem?_eq_some_iff.1 hrow).1
      have hq := o4 i (by omega)
      rw [hrow] at hq
      have hown : Owns nodeLens r ((before nodeLens r : Int) + i) := by
        obtain ⟨a1, a2⟩ := List.getElem?_eq_some_iff.1 x1
        exact ⟨a1, by omega, by omega⟩
      have hiff : ∀ c, In (insAll x.1.2.record pairs) ((before nodeLens r : Int) + i) c ↔ Refers cells c ((before nodeLens r : Int) + i) :=
        fun c => ⟨hfin1 _ c, hfin2 _ c hown⟩
      cases hg : recGet (insAll x.1.2.record pairs) ((before nodeLens r : Int) + i) with
      | none =>
        rw [hg] at hq
        simp only [Option.map_none, Option.getD_none, Option.some.injEq] at hq
        subst hq
        refine ⟨by simp, fun c => ?_⟩
        rw [← hiff]
        simp [In, hg]
      | some t =>
        rw [hg] at hq
        simp only [Option.map_some, Option.getD_some, Option.some.injEq] at hq
        subst hq
        refine ⟨(hf.set t).nodup_iff.2 (hset _ hwf hfin1 _ t hg).2, fun c => ?_⟩
        rw [← hiff, (hf.set t).mem_iff]
        simp [In, hg])
  refine ⟨out, ?_, ?_, ?_⟩
  · have hg1 : setMPIAlignBcast (nodeLens.map Int.ofNat) = .ok gn := hgn
    have hg2 : setMPIAlignBcast ((cells.map List.length).map Int.ofNat) = .ok gc := hgc
    have hg3 : setMPIAlignBcast (sonLens.map Int.ofNat) = .ok gs := hgs
    simp only [node2Cell, hg1, hg2, Res.ok_bind, hscans, hfathers, hflens, hmaps, hsons, hsle, hpush, hg3, hmaps2, hct, p1]
    exact hout
  · rw [hol, List.length_zip, List.length_zip, List.length_zip, List.length_zip]; omega
  · intro r n a h1 h2
    have hrl := (List.getElem?_eq_some_iff.1 h1).1
    exact hres r ((n, scans[r]'(by omega)), maps[r]'(by omega), w2.fathers[r]'(by omega), w2.sons[r]'(by omega)) a (by
      rw [List.getElem?_zip_eq_some, List.getElem?_zip_eq_some, List.getElem?_zip_eq_some, List.getElem?_zip_eq_some]
      exact ⟨⟨h1, by simp⟩, by simp, by simp, by simp⟩) h2

/-- **C25**, refusal. An entry that is no existing node makes the call abort, before anything is exchanged. -/
theorem node2cell_refuses (h : Hash) (u : Bool) (nodeLens : List Nat) (cells : List (List (List Int)))
    (order : List (Nat × Nat)) (hr : ¬ InRange nodeLens cells) : node2Cell h u nodeLens cells order = .abort := by
  obtain ⟨gn, hgn⟩ := built_exists nodeLens
  obtain ⟨gc, hgc⟩ := built_exists (cells.map List.length)
  have hg1 : setMPIAlignBcast (nodeLens.map Int.ofNat) = .ok gn := hgn
  have hg2 : setMPIAlignBcast ((cells.map List.length).map Int.ofNat) = .ok gc := hgc
  have hscan := fun (r : Nat) (rows : List (List Int)) (hc : cells[r]? = some rows) =>
    scanCells_eq hgn hgc (r := r) (n := rows.length) (by rw [List.getElem?_map, hc]; rfl) rows 0 ⟨[], []⟩ (by omega)
  have hne : ∀ (i : Nat) (rows : List (List Int)), cells[i]? = some rows →
      (∃ s, scanCells gn gc i rows.length 0 ⟨[], []⟩ rows = .ok s) ∨ scanCells gn gc i rows.length 0 ⟨[], []⟩ rows = .abort := by
    intro i rows hc
    by_cases hx : ∀ row ∈ rows, ∀ q ∈ row, 0 ≤ q ∧ q < nodeLens.sum
    · obtain ⟨s, e, _⟩ := (hscan i rows hc).1 hx
      exact Or.inl ⟨s, e⟩
    · exact Or.inr ((hscan i rows hc).2 hx)
  have hab : forRanks (fun r rows => scanCells gn gc r rows.length 0 ⟨[], []⟩ rows) 0 cells = .abort := by
    cases hc : forRanks (fun r rows => scanCells gn gc r rows.length 0 ⟨[], []⟩ rows) 0 cells with
    | abort => rfl
    | ub =>
      refine absurd hc (forRanks_ne_ub _ _ _ ?_)
      intro i x hx
      rw [Nat.zero_add]
      rcases hne i x hx with ⟨s, e⟩ | e <;> rw [e] <;> simp
    | ok ys =>
      exfalso
      apply hr
      intro rows hrows
      obtain ⟨i, hi⟩ := List.mem_iff_getElem?.1 hrows
      obtain ⟨y, _, hy⟩ := ((forRanks_ok _ _ _ _).1 hc).2 i rows hi
      rw [Nat.zero_add] at hy
      apply Classical.byContradiction
      intro hx
      rw [(hscan i rows hi).2 hx] at hy
      cases hy
  simp only [node2Cell, hg1, hg2, Res.ok_bind, hab]; rfl

/-! ### the theorem applies -/

/-- hash containers that are visited in the opposite order of insertion -/
def demoHash : Hash := ⟨List.reverse, List.reverse⟩

theorem demoHash_fair : Fair demoHash := ⟨fun s => List.reverse_perm s, fun m => List.reverse_perm m⟩

/-- two quadrilaterals, a triangle and a row with a repeated entry on three ranks, the second of which owns no node -/
def demoCells : List (List (List Int)) := [[[0, 1, 4, 3]], [[1, 2, 5, 4]], [[3, 4, 5], [4, 4, 0]]]

example : InRange [3, 0, 3] demoCells ∧ entries demoCells < int32Max ∧ ¬ InRange [3, 0, 2] demoCells := by
  refine ⟨?_, by decide, ?_⟩ <;> unfold InRange <;> decide

/-- cells 0, 1, 2, 3 refer to node 4, which is the second node of rank 2 -/
example : ∀ c, Refers demoCells c 4 ↔ c = 0 ∨ c = 1 ∨ c = 2 ∨ c = 3 := by
  intro c
  constructor
  · rintro ⟨s, k, row, ⟨rows, h1, h2⟩, h3, h4⟩
    match s, k with
    | 0, 0 => simp [before] at h3; omega
    | 1, 0 => simp [before, demoCells] at h3; omega
    | 2, 0 => simp [before, demoCells] at h3; omega
    | 2, 1 => simp [before, demoCells] at h3; omega
    | 0, k + 1 => simp [demoCells] at h1; subst h1; simp at h2
    | 1, k + 1 => simp [demoCells] at h1; subst h1; simp at h2
    | 2, k + 2 => simp [demoCells] at h1; subst h1; simp at h2
    | s + 3, k => simp [demoCells] at h1
  · rintro (rfl | rfl | rfl | rfl)
    · exact ⟨0, 0, [0, 1, 4, 3], ⟨_, rfl, rfl⟩, by decide, by decide⟩
    · exact ⟨1, 0, [1, 2, 5, 4], ⟨_, rfl, rfl⟩, by decide, by decide⟩
    · exact ⟨2, 0, [3, 4, 5], ⟨_, rfl, rfl⟩, by decide, by decide⟩
    · exact ⟨2, 1, [4, 4, 0], ⟨_, rfl, rfl⟩, by decide, by decide⟩

example : ∃ out, node2Cell demoHash true [3, 0, 3] demoCells (allPairs 3) = .ok out ∧ out.length = 3 := by
  obtain ⟨out, h1, h2, _⟩ := node2cell_exact demoHash demoHash_fair true [3, 0, 3] demoCells rfl (allPairs 3) (allPairs_all 3)
    (by unfold InRange; decide) (by decide)
  exact ⟨out, h1, h2⟩

example : node2Cell demoHash true [3, 0, 2] demoCells (allPairs 3) = .abort :=
  node2cell_refuses demoHash true [3, 0, 2] demoCells (allPairs 3) (by unfold InRange; decide)

end DNDSR.N2C
