import Verif.Props.Partition

/-!
# C23: converting adjacencies and node partitions
-/

namespace DNDSR.Part

open DNDSR.Arr hiding Array
open DNDSR.IMap DNDSR.Tran

/-! ### the one-column array of new numbers -/

/-- the array holding a column of numbers -/
def colArr (vals : List Int) : Arr.Array Int := ⟨none, none, vals, [], vals.length, 0⟩

theorem tyOne_layout : tyOne.layout = .staticFixed := by decide

theorem colArr_addr (vals : List Int) (i : Nat) (h : i < vals.length) :
    addr tyOne (colArr vals) i 0 = .ok (.flat i) := by
  have h1 : (colArr vals).size = vals.length := rfl
  have h2 : rowSize tyOne (colArr vals) i = .ok 1 := rfl
  have h3 : (colArr vals).data = vals := rfl
  unfold addr
  rw [Res.assert_true _ ⟨by omega, by omega⟩, Res.ok_bind, h2, Res.ok_bind,
    Res.assert_true _ (by decide), Res.ok_bind]
  have e : (i : Int).toNat * tyOne.rs.toNat + (0 : Int).toNat = i := by simp [tyOne]
  simp only [tyOne_layout]
  rw [e, h3, if_pos h]

theorem colArr_read (vals : List Int) (i : Nat) (v : Int) (h : vals[i]? = some v) :
    atRead tyOne (colArr vals) i 0 = .ok v := by
  have hl := (List.getElem?_eq_some_iff.1 h).1
  rw [atRead, colArr_addr vals i hl, Res.ok_bind]
  simp only [load, colArr, h]

theorem colArr_write (vals : List Int) (i : Nat) (v : Int) (h : i < vals.length) :
    atWrite tyOne (colArr vals) i 0 v = .ok (colArr (vals.set i v)) := by
  rw [atWrite, colArr_addr vals i h, Res.ok_bind]
  simp [store, colArr]

theorem run_writes : ∀ (vals done : List Int), run 0 tyOne (colArr (done ++ List.replicate vals.length 0))
    ((vals.zipIdx done.length).map (fun x => Op.write x.2 0 x.1)) = .ok (colArr (done ++ vals)) := by
  intro vals
  induction vals with
  | nil => intro done; simp [run]
  | cons v vs ih =>
    intro done
    rw [List.zipIdx_cons, List.map_cons, run]
    have e : step 0 tyOne (colArr (done ++ List.replicate (v :: vs).length 0)) (Op.write (done.length : Nat) 0 v) =
        .ok (colArr ((done ++ [v]) ++ List.replicate vs.length 0)) := by
      rw [step, colArr_write _ _ _ (by simp)]
      congr 2
      rw [List.length_cons, List.replicate_succ, List.set_append_right _ _ (by omega)]
      simp
    rw [e, Res.ok_bind]
    have := ih (done ++ [v])
    simpa using this

theorem column_eq (vals : List Int) : column vals = .ok (colArr vals) := by
  rw [column, run]
  have e : step 0 tyOne Arr.Array.empty (.resize1 true vals.length) = .ok (colArr (List.replicate vals.length 0)) := by
    simp only [step, resize1, tyOne_layout]
    congr 1
    simp [colArr, Arr.Array.empty, vresize, tyOne]
  rw [e, Res.ok_bind]
  simpa using run_writes vals []

theorem usable_tyOne : ∀ (ops : List (Op Int)), (∀ op ∈ ops, (∃ u n, op = .resize1 u n) ∨ ∃ i j v, op = .write i j v) →
    ∀ a, UsableRun 0 tyOne a ops := by
  intro ops
  induction ops with
  | nil => intro _ a; trivial
  | cons op ops ih =>
    intro h a
    refine ⟨?_, fun a' _ => ih (fun o ho => h o (by simp [ho])) a'⟩
    intro v _
    rcases h op (by simp) with ⟨u, n, rfl⟩ | ⟨i, j, x, rfl⟩
    · simp only [Usable, tyOne_layout]
    · trivial

theorem colArr_reachable (vals : List Int) : Reachable 0 tyOne (colArr vals) := by
  refine ⟨_, column_eq vals, usable_tyOne _ ?_ _⟩
  intro op hop
  rcases List.mem_cons.1 hop with rfl | hop
  · exact Or.inl ⟨_, _, rfl⟩
  · obtain ⟨x, _, rfl⟩ := List.mem_map.1 hop
    exact Or.inr ⟨_, _, _, rfl⟩

/-! ### collecting what is needed -/

theorem queryRow_spec {lens : List Nat} {g : GOM} (hg : Built lens g) (rank : Nat) : ∀ (row : List Int),
    (∀ out, queryRow g rank row = .ok out →
      (∀ v ∈ row.takeWhile (fun v => v ≠ unInit), ∃ o, Owns lens o v ∧ (o ≠ rank → v ∈ out)) ∧
      out.length ≤ row.length ∧ ∀ q ∈ out, 0 ≤ q ∧ q < lens.sum) ∧
    ((∀ v ∈ row.takeWhile (fun v => v ≠ unInit), 0 ≤ v ∧ v < lens.sum) → ∃ out, queryRow g rank row = .ok out) ∧
    queryRow g rank row ≠ .ub := by
  intro row
  induction row with
  | nil => refine ⟨?_, fun _ => ⟨_, rfl⟩, by simp [queryRow]⟩; intro out h; simp [queryRow] at h; subst h; simp
  | cons v vs ih =>
    obtain ⟨i1, i2, i3⟩ := ih
    by_cases hv : v = unInit
    · rw [queryRow, if_pos hv]
      refine ⟨?_, fun _ => ⟨_, rfl⟩, by simp⟩
      intro out h; cases h
      simp [List.takeWhile, hv]
    · rw [queryRow, if_neg hv]
      have htw : (v :: vs).takeWhile (fun v => v ≠ unInit) = v :: vs.takeWhile (fun v => v ≠ unInit) := by
        rw [List.takeWhile_cons, if_pos (by simpa using hv)]
      rcases search_eq hg v with ⟨o, ho, hs⟩ | ⟨hout, hs⟩
      · rw [hs, Res.ok_bind]
        simp only
        cases hq : queryRow g rank vs with
        | ub => exact absurd hq i3
        | abort =>
          refine ⟨?_, ?_, by simp⟩
          · intro out h; simp at h
          · intro h
            obtain ⟨out, e⟩ := i2 (fun w hw => h w (by rw [htw]; exact List.mem_cons_of_mem _ hw))
            rw [hq] at e; cases e
        | ok rest =>
          rw [Res.ok_bind]
          refine ⟨?_, fun _ => ⟨_, rfl⟩, by simp⟩
          intro out h
          obtain ⟨j1, j2, j3⟩ := i1 rest hq
          have hsub : ∀ q ∈ rest, q ∈ out := by
            intro q hq
            cases h
            split <;> simp [hq]
          refine ⟨?_, ?_, ?_⟩
          · intro w hw
            rw [htw] at hw
            rcases List.mem_cons.1 hw with rfl | hw
            · refine ⟨o, ho, ?_⟩
              intro hne
              cases h
              rw [if_pos (by simpa using hne)]; simp
            · obtain ⟨o', h1, h2⟩ := j1 w hw
              exact ⟨o', h1, fun hne => hsub w (h2 hne)⟩
          · cases h
            split <;> simp <;> omega
          · intro q hq'
            cases h
            have hor := owns_range ho
            split at hq'
            · rcases List.mem_cons.1 hq' with rfl | hq'
              · exact hor
              · exact j3 q hq'
            · exact j3 q hq'
      · rw [hs, Res.ok_bind]
        refine ⟨fun out h => by simp at h, ?_, by simp⟩
        intro h
        have := h v (by rw [htw]; simp)
        omega

theorem queryRows_spec {lens : List Nat} {g : GOM} (hg : Built lens g) (rank : Nat) : ∀ (rows : List (List Int)),
    (∀ out, queryRows g rank rows = .ok out →
      (∀ row ∈ rows, ∀ v ∈ row.takeWhile (fun v => v ≠ unInit), ∃ o, Owns lens o v ∧ (o ≠ rank → v ∈ out)) ∧
      out.length ≤ (rows.map List.length).sum ∧ ∀ q ∈ out, 0 ≤ q ∧ q < lens.sum) ∧
    ((∀ row ∈ rows, ∀ v ∈ row.takeWhile (fun v => v ≠ unInit), 0 ≤ v ∧ v < lens.sum) →
      ∃ out, queryRows g rank rows = .ok out) := by
  intro rows
  induction rows with
  | nil => refine ⟨?_, fun _ => ⟨_, rfl⟩⟩; intro out h; simp [queryRows] at h; subst h; simp
  | cons row rows ih =>
    obtain ⟨i1, i2⟩ := ih
    obtain ⟨q1, q2, _⟩ := queryRow_spec hg rank row
    refine ⟨?_, ?_⟩
    · intro out h
      rw [queryRows] at h
      obtain ⟨a, ha, h⟩ := (Res.bind_ok_iff _ _ _).1 h
      obtain ⟨b, hb, h⟩ := (Res.bind_ok_iff _ _ _).1 h
      cases h
      obtain ⟨a1, a2, a3⟩ := q1 a ha
      obtain ⟨b1, b2, b3⟩ := i1 b hb
      refine ⟨?_, by simp; omega, ?_⟩
      · intro r hr v hv
        rcases List.mem_cons.1 hr with rfl | hr
        · obtain ⟨o, h1, h2⟩ := a1 v hv
          exact ⟨o, h1, fun hne => by simp [h2 hne]⟩
        · obtain ⟨o, h1, h2⟩ := b1 r hr v hv
          exact ⟨o, h1, fun hne => by simp [h2 hne]⟩
      · intro q hq
        rcases List.mem_append.1 hq with hq | hq
        · exact a3 q hq
        · exact b3 q hq
    · intro h
      obtain ⟨a, ha⟩ := q2 (h row (by simp))
      obtain ⟨b, hb⟩ := i2 (fun r hr => h r (by simp [hr]))
      exact ⟨_, by rw [queryRows, ha, Res.ok_bind, hb, Res.ok_bind]⟩

theorem convertRow_spec (f : Int → Res Int) (F : Int → Int → Prop) : ∀ (row : List Int),
    (∀ v ∈ row.takeWhile (fun v => v ≠ unInit), ∃ v', f v = .ok v' ∧ F v v') →
    ∃ out, convertRow f row = .ok out ∧ RowMapped F row out := by
  intro row
  induction row with
  | nil => intro _; exact ⟨[], rfl, .nil⟩
  | cons v vs ih =>
    intro h
    by_cases hv : v = unInit
    · subst hv
      exact ⟨_, by rw [convertRow, if_pos rfl], .stop vs⟩
    · have htw : (v :: vs).takeWhile (fun v => v ≠ unInit) = v :: vs.takeWhile (fun v => v ≠ unInit) := by
        rw [List.takeWhile_cons, if_pos (by simpa using hv)]
      rw [htw] at h
      obtain ⟨v', h1, h2⟩ := h v (by simp)
      obtain ⟨out, h3, h4⟩ := ih (fun w hw => h w (List.mem_cons_of_mem _ hw))
      exact ⟨v' :: out, by rw [convertRow, if_neg hv, h1, Res.ok_bind, h3, Res.ok_bind], .step hv h2 h4⟩

/-- the new number of the entity with old number `v` -/
def NewNumber (s2g : List (List Int)) (v v' : Int) : Prop :=
  ∃ o, Owns (s2g.map List.length) o v ∧ At s2g o (ownRow (s2g.map List.length) o v).toNat v'

/-- **C23**, adjacencies. Converting an adjacency, distributed in any way over the ranks, replaces every entry up to
the first unset one of its row by the new number of the entity it refers to, and nothing else.  If every entry
refers to an existing entity and there are fewer than `INT_MAX` entries, the conversion returns. -/
theorem convert_adjacency (u : Bool) (s2g : List (List Int)) (adjs : List (List (List Int)))
    (hn : adjs.length = s2g.length) (order : List (Nat × Nat)) (ho : AllPairs s2g.length order) :
    (∀ out, convertAdj u s2g adjs order = .ok out → out.map List.length = adjs.map List.length ∧
      ∀ (r k : Nat) (row row' : List Int), At adjs r k row → At out r k row' → RowMapped (NewNumber s2g) row row') ∧
    ((∀ rows ∈ adjs, ∀ row ∈ rows, ∀ v ∈ row.takeWhile (fun v => v ≠ unInit), 0 ≤ v ∧ v < (s2g.map List.length).sum) →
      ((adjs.map (fun rows => (rows.map List.length).sum)).sum < int32Max) → ∃ out, convertAdj u s2g adjs order = .ok out) := by
  have hcol : forRanks (fun _ v => column v) 0 s2g = .ok (s2g.map colArr) := by
    apply forRanks_map
    intro i v _
    exact column_eq v
  generalize hlens : s2g.map List.length = lens
  have hll : lens.length = s2g.length := by rw [← hlens, List.length_map]
  obtain ⟨g, hg⟩ := built_exists lens
  have hset : setMPIAlignBcast (lens.map Int.ofNat) = .ok g := hg
  have hsetup : Setup 0 tyOne lens ⟨s2g.map colArr, (s2g.map colArr).map (fun _ => Arr.Array.empty)⟩ := by
    refine ⟨by decide, by simp [hll], by simp [hll], ?_, ?_, ?_⟩
    · intro r fa hfa
      rw [List.getElem?_map] at hfa
      obtain ⟨v, hv, rfl⟩ := Option.map_eq_some_iff.1 hfa
      refine ⟨colArr_reachable v, ?_⟩
      rw [← hlens, List.getElem?_map, hv]; rfl
    · intro s so hso
      have := List.mem_of_getElem? hso
      simp only [List.mem_map] at this
      obtain ⟨_, _, rfl⟩ := this
      exact empty_reachable 0 tyOne
    · intro _ r s fr fs hr hs
      rfl
  -- after the ghosts are known
  have hmain : ∀ queries maps w1 types, forRanks (fun r rows => queryRows g r rows) 0 adjs = .ok queries →
      createPull g lens queries = .ok maps →
      createTypes 0 tyOne u maps ⟨s2g.map colArr, (s2g.map colArr).map (fun _ => Arr.Array.empty)⟩ = .ok (w1, types) →
      ∃ out, convertAdj u s2g adjs order = .ok out ∧ out.map List.length = adjs.map List.length ∧
      ∀ (r k : Nat) (row row' : List Int), At adjs r k row → At out r k row' → RowMapped (NewNumber s2g) row row' := by
    intro queries maps w1 types hq hmaps hct
    obtain ⟨ql, qg⟩ := (forRanks_ok _ _ _ _).1 hq
    have hnq : queries.length = lens.length := by omega
    have hmo := maps_of hg queries hnq maps hmaps
    obtain ⟨_, hp⟩ := setup_pull_links u hmo.links _ hsetup order (by rw [hll]; exact ho)
    obtain ⟨w2, p1, p2, p3, p4, p5⟩ := hp w1 types hct
    have hconv : ∀ (r : Nat) (rows : List (List Int)) (m : Map) (fa so : Arr.Array Int), adjs[r]? = some rows →
        maps[r]? = some m → w2.fathers[r]? = some fa → w2.sons[r]? = some so →
        ∀ row ∈ rows, ∃ out, convertRow (lookupNew m fa so) row = .ok out ∧ RowMapped (NewNumber s2g) row out := by
      intro r rows m fa so hr hm hfa hso row hrow
      obtain ⟨qs, hqs1, hqs2⟩ := qg r rows hr
      rw [Nat.zero_add] at hqs2
      obtain ⟨r1, _, _⟩ := (queryRows_spec hg r rows).1 qs hqs2
      apply convertRow_spec
      intro v hv
      obtain ⟨o, ho1, ho2⟩ := r1 row hrow v hv
      have hol : o < s2g.length := by rw [← hll]; exact ho1.1
      obtain ⟨k1, k2, _⟩ := ghost_searchRank_spec hg queries hnq maps hmaps r m qs hm hqs1 v
      obtain ⟨k0, k3, k4⟩ := ho1
      have hown : lens[o] = (s2g[o]).length := by simp [← hlens]
      obtain ⟨x, hx⟩ : ∃ x, s2g[o][(ownRow lens o v).toNat]? = some x := by
        have : (ownRow lens o v).toNat < s2g[o].length := by unfold ownRow; omega
        exact ⟨s2g[o][(ownRow lens o v).toNat], by simp [this]⟩
      have hat : At s2g o (ownRow lens o v).toNat x := ⟨s2g[o], by simp [hol], hx⟩
      have hread : atRead tyOne (colArr s2g[o]) (ownRow lens o v) 0 = .ok x := by
        have e : ownRow lens o v = ((ownRow lens o v).toNat : Int) := by unfold ownRow; omega
        rw [e]
        exact colArr_read _ _ _ hx
      have hfo : (s2g.map colArr)[o]? = some (colArr s2g[o]) := by simp [hol]
      refine ⟨x, ?_, o, by rw [hlens]; exact ⟨k0, k3, k4⟩, by rw [hlens]; exact hat⟩
      by_cases hor : o = r
      · subst hor
        obtain ⟨s1, _⟩ := k1 ⟨k0, k3, k4⟩
        rw [lookupNew, s1, Res.ok_bind]
        simp only [if_true]
        obtain ⟨fa', f1, f2, f3⟩ := p4 o _ hfo
        rw [p2, f1] at hfa
        cases hfa
        have hi : (ownRow lens o v).toNat < (colArr s2g[o]).size := by simp [colArr]; unfold ownRow; omega
        have hsr := f3 _ hi
        have e : v - before lens o = ((ownRow lens o v).toNat : Int) := by unfold ownRow; omega
        have e' : ownRow lens o v = ((ownRow lens o v).toNat : Int) := by unfold ownRow; omega
        rw [e, hsr.2 0, ← e']
        exact hread
      · have hnr : ¬ Owns lens r v := fun h' => hor (owns_unique ⟨k0, k3, k4⟩ h')
        have hmem := ((ghost_list_spec hg queries hnq maps hmaps r m qs hm hqs1).2.1 v).2 (ho2 hor)
        obtain ⟨k, hk, hke⟩ := List.mem_iff_getElem.1 hmem
        have hk' : m.ghostIndex[k]? = some v := by rw [List.getElem?_eq_getElem hk, hke]
        obtain ⟨s1, _⟩ := k2 o k hnr hk' ⟨k0, k3, k4⟩
        rw [lookupNew, s1, Res.ok_bind]
        simp only
        rw [if_neg (by omega), ((p5 r m so hm hso).2 k v o _ hk' ⟨k0, k3, k4⟩ hfo).2 0]
        exact hread
    have hfl : w2.fathers.length = adjs.length := by
      rw [p2]
      have := createTypes_wired hmo.links (setup_ready hsetup) hct
      rw [this.fl]; omega
    have hzip : ∀ (r : Nat) (x : List (List Int) × Map × Arr.Array Int × Arr.Array Int),
        (adjs.zip (maps.zip (w2.fathers.zip w2.sons)))[r]? = some x →
        adjs[r]? = some x.1 ∧ maps[r]? = some x.2.1 ∧ w2.fathers[r]? = some x.2.2.1 ∧ w2.sons[r]? = some x.2.2.2 := by
      intro r x hx
      rw [List.getElem?_zip_eq_some, List.getElem?_zip_eq_some, List.getElem?_zip_eq_some] at hx
      exact hx
    have hrun : ∃ out, forRanks (fun _ (x : List (List Int) × Map × Arr.Array Int × Arr.Array Int) =>
        forRanks (fun _ row => convertRow (lookupNew x.2.1 x.2.2.1 x.2.2.2) row) 0 x.1) 0
        (adjs.zip (maps.zip (w2.fathers.zip w2.sons))) = .ok out := by
      apply forRanks_total
      intro r x hx
      obtain ⟨z1, z2, z3, z4⟩ := hzip r x hx
      apply forRanks_total
      intro k row hrow
      obtain ⟨out, e, _⟩ := hconv r x.1 x.2.1 x.2.2.1 x.2.2.2 z1 z2 z3 z4 row (List.mem_of_getElem? hrow)
      exact ⟨out, e⟩
    obtain ⟨out, hout⟩ := hrun
    obtain ⟨o1, o2⟩ := (forRanks_ok _ _ _ _).1 hout
    have hml : maps.length = adjs.length := by rw [hmo.links.len]; omega
    have hx : ∀ (r : Nat) (rows : List (List Int)), adjs[r]? = some rows → ∃ rows', out[r]? = some rows' ∧
        rows'.length = rows.length ∧ ∀ (k : Nat) (row row' : List Int), rows[k]? = some row → rows'[k]? = some row' →
          RowMapped (NewNumber s2g) row row' := by
      intro r rows hr
      have hrl := (List.getElem?_eq_some_iff.1 hr).1
      obtain ⟨m, hm⟩ : ∃ m, maps[r]? = some m := ⟨maps[r]'(by omega), by simp⟩
      obtain ⟨fa, hfa⟩ : ∃ fa, w2.fathers[r]? = some fa := ⟨w2.fathers[r]'(by omega), by simp⟩
      obtain ⟨so, hso⟩ : ∃ so, w2.sons[r]? = some so := ⟨w2.sons[r]'(by omega), by simp⟩
      obtain ⟨rows', e1, e2⟩ := o2 r (rows, m, fa, so) (by
        rw [List.getElem?_zip_eq_some, List.getElem?_zip_eq_some, List.getElem?_zip_eq_some]
        exact ⟨hr, hm, hfa, hso⟩)
      obtain ⟨e3, e4⟩ := (forRanks_ok _ _ _ _).1 e2
      refine ⟨rows', e1, e3, ?_⟩
      intro k row row' hrow hrow'
      obtain ⟨y, y1, y2⟩ := e4 k row hrow
      rw [hrow'] at y1; cases y1
      obtain ⟨y', y3, y4⟩ := hconv r rows m fa so hr hm hfa hso row (List.mem_of_getElem? hrow)
      rw [y3] at y2; cases y2
      exact y4
    refine ⟨out, ?_, ?_, ?_⟩
    · simp only [convertAdj, hcol, Res.ok_bind, hlens, hset, hq, hmaps, hct, p1]
      exact hout
    · apply List.ext_getElem?
      intro r
      rw [List.getElem?_map, List.getElem?_map]
      by_cases hr : r < adjs.length
      · obtain ⟨rows', e1, e2, _⟩ := hx r adjs[r] (by simp [hr])
        rw [e1, List.getElem?_eq_getElem hr]; simp [e2]
      · have : out.length = adjs.length := by rw [o1]; simp; omega
        rw [List.getElem?_eq_none (by omega), List.getElem?_eq_none (by omega)]
    · intro r k row row' ⟨rows, h1, h2⟩ ⟨rows2, h3, h4⟩
      obtain ⟨rows', e1, e2, e3⟩ := hx r rows h1
      rw [h3] at e1; cases e1
      exact e3 k row row' h2 h4
  refine ⟨?_, ?_⟩
  · intro out hout
    have hout' := hout
    simp only [convertAdj, hcol, Res.ok_bind, hlens, hset] at hout'
    obtain ⟨queries, hq, hout'⟩ := (Res.bind_ok_iff _ _ _).1 hout'
    obtain ⟨maps, hmaps, hout'⟩ := (Res.bind_ok_iff _ _ _).1 hout'
    obtain ⟨wt, hct, hout'⟩ := (Res.bind_ok_iff _ _ _).1 hout'
    obtain ⟨out', e1, e2, e3⟩ := hmain queries maps wt.1 wt.2 hq hmaps hct
    rw [hout] at e1; cases e1
    exact ⟨e2, e3⟩
  · intro hv hb
    obtain ⟨queries, hq⟩ : ∃ queries, forRanks (fun r rows => queryRows g r rows) 0 adjs = .ok queries := by
      apply forRanks_total
      intro r rows hr
      exact (queryRows_spec hg _ rows).2 (hv rows (List.mem_of_getElem? hr))
    obtain ⟨ql, qg⟩ := (forRanks_ok _ _ _ _).1 hq
    have hql : ∀ (r : Nat) (qs : List Int), queries[r]? = some qs → ∃ rows, adjs[r]? = some rows ∧
        qs.length ≤ (rows.map List.length).sum ∧ ∀ q ∈ qs, 0 ≤ q ∧ q < lens.sum := by
      intro r qs hr
      have hrl := (List.getElem?_eq_some_iff.1 hr).1
      have hr' : adjs[r]? = some (adjs[r]'(by omega)) := by simp
      obtain ⟨y, y1, y2⟩ := qg r _ hr'
      rw [hr] at y1; cases y1
      obtain ⟨_, a, b⟩ := (queryRows_spec hg _ _).1 qs y2
      exact ⟨_, hr', a, b⟩
    have hsum : (queries.map List.length).sum ≤ (adjs.map (fun rows => (rows.map List.length).sum)).sum := by
      have : ∀ (a b : List Nat), a.length = b.length → (∀ (i x y : Nat), a[i]? = some x → b[i]? = some y → x ≤ y) →
          a.sum ≤ b.sum := by
        intro a
        induction a with
        | nil => intro b _ _; simp
        | cons x xs ih =>
          intro b hb h
          cases b with
          | nil => simp at hb
          | cons y ys =>
            have h0 := h 0 x y (by simp) (by simp)
            have := ih ys (by simpa using hb) (fun i x' y' hx hy => h (i + 1) x' y' (by simpa using hx) (by simpa using hy))
            simp only [List.sum_cons]; omega
      apply this
      · simp [ql]
      · intro i x y hx hy
        rw [List.getElem?_map] at hx hy
        obtain ⟨qs, h1, rfl⟩ := Option.map_eq_some_iff.1 hx
        obtain ⟨rows, h2, rfl⟩ := Option.map_eq_some_iff.1 hy
        obtain ⟨rows', h3, h4, _⟩ := hql i qs h1
        rw [h2] at h3; cases h3
        exact h4
    have hi : (int32Max : Int) = Defines.intMax 32 := by decide
    obtain ⟨maps, hmaps⟩ := ghost_map_exists hg queries (by omega) (by
      intro req hreq q hq'
      obtain ⟨r, hr, rfl⟩ := List.mem_iff_getElem.1 hreq
      obtain ⟨_, _, _, h⟩ := hql r _ (List.getElem?_eq_getElem hr)
      exact h q hq') (by omega)
    have hmo := maps_of hg queries (by omega) maps hmaps
    obtain ⟨w1, types, hct⟩ := (createTypes_total_links u hmo.links _ hsetup).2 (fun _ => 1) (by
      intro r fa q hfa hoq
      rw [if_neg (by decide)]
      rfl) (by
      intro s ms hms
      have hsl := (List.getElem?_eq_some_iff.1 hms).1
      have hl := hmo.links.len
      obtain ⟨qs, hqs⟩ : ∃ qs, queries[s]? = some qs := ⟨queries[s]'(by omega), by simp⟩
      obtain ⟨k1, k2, _⟩ := ghost_list_spec hg queries (by omega) maps hmaps s ms qs hms hqs
      have hle : ms.ghostIndex.length ≤ qs.length := by
        have hnd : ms.ghostIndex.Nodup := by
          unfold List.Nodup
          exact k1.imp (fun h => by omega)
        have : ∀ (a b : List Int), a.Nodup → (∀ x ∈ a, x ∈ b) → a.length ≤ b.length := by
          intro a
          induction a with
          | nil => intro b _ _; simp
          | cons x xs ih =>
            intro b h1 h2
            have hx := h2 x (by simp)
            have h3 := ih (b.erase x) (List.nodup_cons.1 h1).2 (by
              intro y hy
              have hne : y ≠ x := by rintro rfl; exact (List.nodup_cons.1 h1).1 hy
              exact (List.mem_erase_of_ne hne).2 (h2 y (by simp [hy])))
            have h4 := List.length_erase_of_mem hx
            have h5 : 0 < b.length := List.length_pos_of_mem hx
            simp only [List.length_cons]; omega
        exact this _ _ hnd (fun x hx => (k2 x).1 hx)
      have hle2 : qs.length ≤ (queries.map List.length).sum :=
        le_sum_of_mem (List.mem_map.2 ⟨qs, List.mem_of_getElem? hqs, rfl⟩)
      have : (ms.ghostIndex.map (fun _ => 1)).sum = ms.ghostIndex.length := by
        rw [List.map_const', List.sum_replicate_nat]; omega
      omega)
    obtain ⟨out, e, _⟩ := hmain queries maps w1 types hq hmaps hct
    exact ⟨out, e⟩

example : ∃ out, convertAdj true [[4, 0, 5], [], [1, 2, 6, 3]] [[[0, 3], [5, unInit, 7]], [], [[2], [6, 0, 1]]] (allPairs 3) =
    .ok out ∧ out.map List.length = [2, 0, 2] := by
  obtain ⟨h1, h2⟩ := convert_adjacency true [[4, 0, 5], [], [1, 2, 6, 3]]
    [[[0, 3], [5, unInit, 7]], [], [[2], [6, 0, 1]]] rfl (allPairs 3) (allPairs_all 3)
  obtain ⟨out, h3⟩ := h2 (by decide) (by decide)
  exact ⟨out, h3, (h1 out h3).1⟩

-- old number 5 is the third entity of rank 2, whose new number is 6
example : NewNumber [[4, 0, 5], [], [1, 2, 6, 3]] 5 6 :=
  ⟨2, ⟨by decide, by decide, by decide⟩, [1, 2, 6, 3], rfl, rfl⟩

def demoParts2 : List (List Int) := [[2, 0], [], [0, 2, 0]]

-- the hypotheses of `transfer_delivers` hold of arrays with rows of different sizes
example : ∃ pushes, groupAll 3 demoParts2 = .ok pushes ∧
    transferData 0 ⟨-2, -2⟩ true pushes demoWorld (allPairs 3) ≠ .ub := by
  obtain ⟨pushes, s2g, h1, h2, h3, _⟩ := transfer_delivers (z := 0) (ty := ⟨-2, -2⟩) true demoParts2
    (by unfold ValidParts demoParts2; decide) (by unfold demoParts2; decide) demoWorld demo_setup (allPairs 3) (allPairs_all 3)
  exact ⟨pushes, h1, h3⟩

-- and of one-column arrays, for which the transfer returns
example : ∃ pushes w', groupAll 3 demoParts2 = .ok pushes ∧
    transferData 0 tyOne true pushes ⟨[colArr [10, 11], colArr [], colArr [20, 21, 22]], [.empty, .empty, .empty]⟩
      (allPairs 3) = .ok w' ∧ w'.sons.map (·.size) = [3, 0, 2] := by
  have hs : Setup 0 tyOne (demoParts2.map List.length)
      ⟨[colArr [10, 11], colArr [], colArr [20, 21, 22]], [.empty, .empty, .empty]⟩ := by
    refine ⟨by decide, rfl, rfl, ?_, ?_, fun _ _ _ _ _ _ _ => rfl⟩
    · intro r fa h
      match r, h with
      | 0, rfl => exact ⟨colArr_reachable _, rfl⟩
      | 1, rfl => exact ⟨colArr_reachable _, rfl⟩
      | 2, rfl => exact ⟨colArr_reachable _, rfl⟩
    · intro r fa h
      match r, h with
      | 0, rfl => exact empty_reachable 0 tyOne
      | 1, rfl => exact empty_reachable 0 tyOne
      | 2, rfl => exact empty_reachable 0 tyOne
  obtain ⟨pushes, s2g, h1, h2, h3, h4, h5⟩ := transfer_delivers (z := 0) (ty := tyOne) true demoParts2
    (by unfold ValidParts demoParts2; decide) (by unfold demoParts2; decide) _ hs (allPairs 3) (allPairs_all 3)
  obtain ⟨w', h6⟩ := h4 (fun _ => 1) 1 (fun r fa q _ _ => by rw [if_neg (by decide)]; rfl) (by simp) (by
    unfold demoParts2; decide)
  exact ⟨pushes, w', h1, h6, (h5 w' h6).1⟩

/-- **C23**, the conversion and the transfer agree: the row a converted entry points at is the row the original
entry pointed at. -/
theorem converted_reference {α : Type} {z : α} {ty : Ty} (u : Bool) (parts : List (List Int))
    (h : ValidParts parts.length parts) (hb : ∀ p ∈ parts, (p.length : Int) ≤ Defines.intMax 64)
    (w w' : World α) (hw : Setup z ty (parts.map List.length) w) (order : List (Nat × Nat))
    (ho : AllPairs parts.length order) (pushes : List (List Int × List Nat)) (s2g : List (List Int))
    (hp : groupAll parts.length parts = .ok pushes) (hs : partition2Serial2Global parts.length parts = .ok s2g)
    (ht : transferData z ty u pushes w order = .ok w') (v v' : Int) (hv : NewNumber s2g v v') :
    ∃ (o t : Nat) (fa so : Arr.Array α), Owns (parts.map List.length) o v ∧ w.fathers[o]? = some fa ∧
      Owns (newLens parts.length parts) t v' ∧ w'.sons[t]? = some so ∧
      SameRow ty so (ownRow (newLens parts.length parts) t v') fa (ownRow (parts.map List.length) o v) := by
  obtain ⟨pushes', s2g', h1, h2, _, _, h5⟩ := transfer_delivers (z := z) (ty := ty) u parts h hb w hw order ho
  rw [hp] at h1; cases h1
  rw [hs] at h2; cases h2
  obtain ⟨s2g', r1, r2, r3, r4, _⟩ := renumbering parts.length parts h
  rw [hs] at r1; cases r1
  obtain ⟨h6, h7⟩ := h5 w' ht
  obtain ⟨o, ho1, ho2⟩ := hv
  have hsl : s2g.map List.length = parts.map List.length := r2
  rw [hsl] at ho1 ho2
  obtain ⟨k0, k1, k2⟩ := ho1
  have hol : o < parts.length := by simpa using k0
  have hil : (ownRow (parts.map List.length) o v).toNat < parts[o].length := by
    have : (parts.map List.length)[o] = parts[o].length := by simp
    unfold ownRow; omega
  obtain ⟨x, hx⟩ : ∃ x, parts[o][(ownRow (parts.map List.length) o v).toNat]? = some x := ⟨_, List.getElem?_eq_getElem hil⟩
  have hat : At parts o (ownRow (parts.map List.length) o v).toNat x := ⟨parts[o], by simp [hol], hx⟩
  have hxr := h parts[o] (List.getElem_mem hol) x (List.mem_of_getElem? hx)
  have hxi : ((x.toNat : Nat) : Int) = x := by omega
  have hfl := hw.nfathers
  rw [List.length_map] at hfl
  have hsonl : w'.sons.length = parts.length := by
    have := congrArg List.length h6
    rw [List.length_map, newLens_V, V_length] at this; exact this
  obtain ⟨fa, hfa⟩ : ∃ fa, w.fathers[o]? = some fa := ⟨w.fathers[o]'(by omega), by simp⟩
  obtain ⟨so, hso⟩ : ∃ so, w'.sons[x.toNat]? = some so := ⟨w'.sons[x.toNat]'(by omega), by simp⟩
  have hsr := h7 o (ownRow (parts.map List.length) o v).toNat x.toNat v' fa so (by rw [hxi]; exact hat) ho2 hfa hso
  have e : (((ownRow (parts.map List.length) o v).toNat : Nat) : Int) = ownRow (parts.map List.length) o v := by
    unfold ownRow; omega
  rw [e] at hsr
  exact ⟨o, x.toNat, fa, so, ⟨k0, k1, k2⟩, hfa, r4 o _ x v' hat ho2, hso, hsr⟩

/-! ### node partition -/

/-- `m` is the value a node ends up with: not above `init`, not above the target of a cell listing it, and one of these -/
def LeastOf (init : Int) (k : Int) (cells : List (List Int × Int)) (m : Int) : Prop :=
  m ≤ init ∧ (∀ c ∈ cells, k ∈ c.1 → m ≤ c.2) ∧ (m = init ∨ ∃ c ∈ cells, k ∈ c.1 ∧ m = c.2)

theorem minRow_spec (part : Int) : ∀ (row np : List Int), (∀ v ∈ row, 0 ≤ v ∧ v < np.length) →
    ∃ out, minRow part np row = .ok out ∧ out.length = np.length ∧
      ∀ (k : Nat) (x : Int), np[k]? = some x → out[k]? = some (if (k : Int) ∈ row then min x part else x) := by
  intro row
  induction row with
  | nil => intro np _; exact ⟨np, rfl, rfl, by intro k x h; simp [h]⟩
  | cons v vs ih =>
    intro np h
    obtain ⟨h0, h1⟩ := h v (by simp)
    obtain ⟨old, hold⟩ : ∃ old, np[v.toNat]? = some old := ⟨np[v.toNat]'(by omega), by simp⟩
    have hat : vecAt np v = .ok old := by rw [vecAt, if_pos h0, idx_ok_iff]; exact hold
    obtain ⟨out, e1, e2, e3⟩ := ih (np.set v.toNat (min old part)) (by
      intro w hw
      rw [List.length_set]
      exact h w (List.mem_cons_of_mem _ hw))
    refine ⟨out, by rw [minRow, hat, Res.ok_bind, e1], by rw [e2, List.length_set], ?_⟩
    intro k x hk
    by_cases hkv : (k : Int) = v
    · have hkn : v.toNat = k := by omega
      rw [hkn] at hold e3
      have hox : x = old := by rw [hk] at hold; exact Option.some.inj hold
      subst hox
      have := e3 k (min x part) (by rw [List.getElem?_set_self ((List.getElem?_eq_some_iff.1 hk).1)])
      have hin : (k : Int) ∈ v :: vs := by rw [hkv]; exact List.mem_cons_self
      rw [this]
      simp only [hin, if_true]
      split
      · rw [Int.min_assoc, Int.min_self]
      · rfl
    · have := e3 k x (by rw [List.getElem?_set_ne (by omega)]; exact hk)
      rw [this]
      simp [hkv]

/-- **C23**, nodes follow cells: every node goes to the smallest target among the cells listing it, and a node of no
cell gets `INT32_MAX`, which is no rank. -/
theorem node_partition_least (nNode : Nat) (cells : List (List Int × Int))
    (h : ∀ c ∈ cells, ∀ v ∈ c.1, 0 ≤ v ∧ v < nNode) :
    ∃ out, nodePartition nNode cells = .ok out ∧ out.length = nNode ∧
      ∀ (k : Nat) (m : Int), out[k]? = some m → LeastOf 2147483647 k cells m := by
  have hgen : ∀ (cells : List (List Int × Int)) (np : List Int) , np.length = nNode →
      (∀ c ∈ cells, ∀ v ∈ c.1, 0 ≤ v ∧ v < nNode) →
      ∃ out, cells.foldlM (fun np c => minRow c.2 np c.1) np = .ok out ∧ out.length = nNode ∧
        ∀ (k : Nat) (x m : Int), np[k]? = some x → out[k]? = some m → LeastOf x k cells m := by
    intro cells
    induction cells with
    | nil =>
      intro np hl _
      refine ⟨np, rfl, hl, ?_⟩
      intro k x m h1 h2
      rw [h1] at h2; cases h2
      exact ⟨by omega, by simp, Or.inl rfl⟩
    | cons c cs ih =>
      intro np hl hc
      obtain ⟨np1, e1, e2, e3⟩ := minRow_spec c.2 c.1 np (by rw [hl]; exact hc c (by simp))
      obtain ⟨out, f1, f2, f3⟩ := ih np1 (by omega) (fun d hd => hc d (by simp [hd]))
      refine ⟨out, ?_, f2, ?_⟩
      · rw [List.foldlM_cons, e1, Res.ok_bind, f1]
      · intro k x m h1 h2
        obtain ⟨g1, g2, g3⟩ := f3 k _ m (e3 k x h1) h2
        by_cases hk : (k : Int) ∈ c.1
        · rw [if_pos hk] at g1 g3
          refine ⟨by omega, ?_, ?_⟩
          · intro d hd hkd
            rcases List.mem_cons.1 hd with rfl | hd
            · omega
            · exact g2 d hd hkd
          · rcases g3 with g3 | ⟨d, d1, d2, d3⟩
            · rcases Int.le_total x c.2 with hle | hle
              · rw [Int.min_eq_left hle] at g3; exact Or.inl g3
              · rw [Int.min_eq_right hle] at g3; exact Or.inr ⟨c, by simp, hk, g3⟩
            · exact Or.inr ⟨d, by simp [d1], d2, d3⟩
        · rw [if_neg hk] at g1 g3
          refine ⟨g1, ?_, ?_⟩
          · intro d hd hkd
            rcases List.mem_cons.1 hd with rfl | hd
            · exact absurd hkd hk
            · exact g2 d hd hkd
          · rcases g3 with g3 | ⟨d, d1, d2, d3⟩
            · exact Or.inl g3
            · exact Or.inr ⟨d, by simp [d1], d2, d3⟩
  obtain ⟨out, h1, h2, h3⟩ := hgen cells (List.replicate nNode 2147483647) (by simp) h
  refine ⟨out, h1, h2, ?_⟩
  intro k m hm
  have hk := (List.getElem?_eq_some_iff.1 hm).1
  exact h3 k _ m (by rw [List.getElem?_replicate, if_pos (by omega)]) hm

example : nodePartition 5 [([0, 1, 2], 2), ([2, 3, 1], 1)] = .ok [2, 1, 1, 1, 2147483647] := by rfl

/-- so a mesh with a node of no cell cannot be redistributed: the grouping of the nodes aborts -/
theorem unreferenced_node_aborts (n nNode : Nat) (hn : n ≤ 2147483647) (cells : List (List Int × Int))
    (h : ∀ c ∈ cells, (∀ v ∈ c.1, 0 ≤ v ∧ v < nNode) ∧ 0 ≤ c.2 ∧ c.2 < n) (k : Nat) (hk : k < nNode)
    (hno : ∀ c ∈ cells, (k : Int) ∉ c.1) :
    ∃ out, nodePartition nNode cells = .ok out ∧ partition2LocalIdx n out = .abort := by
  obtain ⟨out, h1, h2, h3⟩ := node_partition_least nNode cells (fun c hc => (h c hc).1)
  refine ⟨out, h1, ?_⟩
  -- the first node of no cell
  have hval : ∀ x ∈ out, (0 ≤ x ∧ x < n) ∨ (n : Int) ≤ x := by
    intro x hx
    obtain ⟨j, hj, rfl⟩ := List.mem_iff_getElem.1 hx
    obtain ⟨_, _, h4 | ⟨c, c1, c2, c3⟩⟩ := h3 j _ (List.getElem?_eq_getElem hj)
    · right; omega
    · left; have := (h c c1).2; omega
  have hex : ∃ x ∈ out, (n : Int) ≤ x := by
    refine ⟨out[k]'(by omega), List.getElem_mem _, ?_⟩
    obtain ⟨_, _, h4 | ⟨c, c1, c2, c3⟩⟩ := h3 k _ (List.getElem?_eq_getElem (by omega))
    · omega
    · exact absurd c2 (hno c c1)
  have hsplit : ∀ (l : List Int), (∀ x ∈ l, (0 ≤ x ∧ x < n) ∨ (n : Int) ≤ x) → (∃ x ∈ l, (n : Int) ≤ x) →
      ∃ (p : List Int) (x : Int) (q : List Int), l = p ++ x :: q ∧ (∀ y ∈ p, 0 ≤ y ∧ y < n) ∧ (n : Int) ≤ x := by
    intro l
    induction l with
    | nil => intro _ h; simp at h
    | cons a as ih =>
      intro h1 h2
      rcases h1 a (by simp) with ha | ha
      · obtain ⟨p, x, q, e, e1, e2⟩ := ih (fun y hy => h1 y (by simp [hy])) (by
          obtain ⟨x, hx, hnx⟩ := h2
          rcases List.mem_cons.1 hx with rfl | hx
          · omega
          · exact ⟨x, hx, hnx⟩)
        refine ⟨a :: p, x, q, by rw [e]; rfl, ?_, e2⟩
        intro y hy
        rcases List.mem_cons.1 hy with rfl | hy
        · exact ha
        · exact e1 y hy
      · exact ⟨[], a, as, rfl, by simp, ha⟩
  obtain ⟨p, x, q, e, e1, e2⟩ := hsplit out hval hex
  rw [e]
  exact grouping_aborts_out_of_range n p q x e1 e2

end DNDSR.Part
