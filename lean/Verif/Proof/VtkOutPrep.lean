import Verif.Proof.VtkOutRecr2

namespace DNDSR.VtkOut

open DNDSR.IMap DNDSR.Elem DNDSR.Bits DNDSR.Faces DNDSR.MeshAdj

variable {periodic : Bool} {gn : GOM} {cl nl : List Nat} {G : List Cell} {X : Nat → Per.V3} {ranks : List Rk}

/-- where the node numbers written for cell `i` of a rank come from -/
def RowFor (periodic : Bool) (L : List (Nat × Mark)) (s : Rk) (i : Nat) (c C : Cell) : Option Recr → Prop
  | none => ∀ (j q : Nat), C.nodes[j]? = some (q : Int) → ∃ (v : Int) (p : Nat), c.nodes[j]? = some v ∧
      MeshAdj.local2Global s.map v = .ok (p : Int) ∧ L[p]? = some (q, mark periodic C j)
  | some R => ∃ row, R.c2n[i]? = some row ∧ row.length = C.nodes.length ∧
      ∀ (j q : Nat), C.nodes[j]? = some (q : Int) → ∃ p : Nat, row[j]? = some (p : Int) ∧ L[p]? = some (q, mark periodic C j)

/-- the points and rows are ready; `LL` are the points rank by rank -/
structure Prepared (periodic : Bool) (P : Per.Periodicity) (cl nl : List Nat) (G : List Cell) (X : Nat → Per.V3) (ranks : List Rk)
    (re : List (Option Recr)) (LL : List (List (Nat × Mark))) : Prop where
  len_re : re.length = ranks.length
  len : LL.length = ranks.length
  once : LL.flatten.Nodup
  exactly : ∀ (q : Nat) (b : Mark), (q, b) ∈ LL.flatten ↔ q < nl.sum ∧ (b = 0 ∨ Seen periodic G q b)
  pts : ∀ (r : Nat) (s : Rk) (R : Option Recr) (l : List (Nat × Mark)), ranks[r]? = some s → re[r]? = some R → LL[r]? = some l →
    outPts s R = l.map (fun e => (Elev.forward P e.2 (X e.1), e.1 - before nl r)) ∧ (∀ e ∈ l, Owns nl r e.1) ∧ nPts s R = l.length
  conn : ∀ (r : Nat) (s : Rk) (R : Option Recr), ranks[r]? = some s → re[r]? = some R → ∀ (i : Nat) (c C : Cell),
    s.cells[i]? = some c → G[before cl r + i]? = some C → RowFor periodic LL.flatten s i c C R

theorem recreate_spec (P : Per.Periodicity) (W : OnMesh true gn cl nl G X ranks) :
    ∃ recs LL, recreate P gn ranks = .ok recs ∧ Prepared true P cl nl G X ranks (recs.map some) LL := by
  obtain ⟨flags, f1, f2, f3⟩ := need_spec W
  have hF : FlagsOk nl G flags := by
    refine ⟨by rw [f2, W.ranks_len], fun r f hf => ?_⟩
    have hr : r < ranks.length := by rw [← f2]; exact (List.getElem?_eq_some_iff.1 hf).1
    obtain ⟨a1, a2⟩ := f3 r _ f (List.getElem?_eq_getElem hr) hf
    refine ⟨by rw [a1]; exact (W.coords r _ (List.getElem?_eq_getElem hr)).1, fun j b hj => a2 j b (by omega)⟩
  obtain ⟨loc, l1, l2, l3⟩ := N2C.forRanks_all (fun _ (p : Rk × List Nat) => recrLocal P p.1 p.2)
    (fun _ p (y : List (List Int) × List (Per.V3 × Nat)) => y.2 = (points p.2.length p.2).map (val P p.1.coords) ∧ y.1.length = p.2.length ∧
      ∀ (k f : Nat) (row : List Int), p.2[k]? = some f → y.1[k]? = some row → RowOk k f p.2.length (made 0 p.2) row)
    (ranks.zip flags) (fun r p hp => by
      obtain ⟨p1, p2⟩ := List.getElem?_zip_eq_some.1 hp
      obtain ⟨a1, a2⟩ := f3 r _ _ p1 p2
      obtain ⟨rows, e1, e2, e3⟩ := recrLocal_spec P p.1 p.2 a1 (by
        intro f hf
        obtain ⟨j, hj⟩ := List.mem_iff_getElem?.1 hf
        have hjl := (List.getElem?_eq_some_iff.1 hj).1
        have := (a2 j 0 (by omega)).2 (Or.inl rfl)
        rw [bitAt, hj] at this
        exact this)
      rw [← a1] at e1 e2 e3
      exact ⟨_, e1, rfl, e2, e3⟩)
  have hzl : (ranks.zip flags).length = ranks.length := by rw [List.length_zip]; omega
  have hloc : ∀ (r : Nat) (s : Rk) (f : List Nat), ranks[r]? = some s → flags[r]? = some f → ∃ rows,
      loc[r]? = some (rows, (points f.length f).map (val P s.coords)) ∧ rows.length = f.length ∧
      ∀ (k x : Nat) (row : List Int), f[k]? = some x → rows[k]? = some row → RowOk k x f.length (made 0 f) row := by
    intro r s f hs hf
    have hz : (ranks.zip flags)[r]? = some (s, f) := List.getElem?_zip_eq_some.2 ⟨hs, hf⟩
    have hr : r < loc.length := by rw [l2]; exact (List.getElem?_eq_some_iff.1 hz).1
    obtain ⟨b1, b2, b3⟩ := l3 r _ _ hz (List.getElem?_eq_getElem hr)
    refine ⟨loc[r].1, ?_, b2, b3⟩
    rw [List.getElem?_eq_getElem hr]
    refine congrArg some (Prod.ext rfl b1)
  have hlens : loc.map (fun p => (p.2.length : Int)) = (((pointLists nl flags).map List.length).map (fun n : Nat => (n : Int))) := by
    apply List.ext_getElem?
    intro r
    by_cases hr : r < ranks.length
    · have hs : ranks[r]? = some ranks[r] := List.getElem?_eq_getElem hr
      have hf : flags[r]? = some (flags[r]'(by omega)) := List.getElem?_eq_getElem _
      obtain ⟨rows, b1, _, _⟩ := hloc r _ _ hs hf
      rw [List.getElem?_map, b1, List.getElem?_map, List.getElem?_map, pointLists_get nl flags r _ hf]
      simp
    · rw [List.getElem?_eq_none (by simp; omega), List.getElem?_eq_none (by simp [pointLists]; omega)]
  obtain ⟨g, g1, g2⟩ := built_of ((pointLists nl flags).map List.length)
  rw [← hlens] at g1
  obtain ⟨rowsG, d1, d2, d3⟩ := N2C.forRanks_all (fun r (p : List (List Int) × List (Per.V3 × Nat)) => toGlobal g r p.1)
    (fun r _ rows => nl[r]? = some rows.length ∧
      ∀ (k : Nat) (row : List Int), rows[k]? = some row → NodeRow G (pointLists nl flags).flatten (before nl r + k) row) loc
    (fun r p hp => by
      have hr : r < ranks.length := by rw [← hzl, ← l2]; exact (List.getElem?_eq_some_iff.1 hp).1
      have hs : ranks[r]? = some ranks[r] := List.getElem?_eq_getElem hr
      have hf : flags[r]? = some (flags[r]'(by omega)) := List.getElem?_eq_getElem _
      obtain ⟨rows, b1, b2, b3⟩ := hloc r _ _ hs hf
      rw [hp] at b1; cases b1
      obtain ⟨y, y1, y2, y3⟩ := toGlobal_spec W hF g2 hf rows b2 b3
      exact ⟨y, y1, by rw [y2]; exact (hF.2 r _ hf).1, y3⟩)
  have hrl : rowsG.length = ranks.length := by omega
  have hrows : ∀ (r : Nat) (rows : List (List Int)), rowsG[r]? = some rows → nl[r]? = some rows.length ∧
      ∀ (k : Nat) (row : List Int), rows[k]? = some row → NodeRow G (pointLists nl flags).flatten (before nl r + k) row := by
    intro r rows h
    have hr : r < loc.length := by rw [← d2]; exact (List.getElem?_eq_some_iff.1 h).1
    exact d3 r _ rows (List.getElem?_eq_getElem hr) h
  have hnl : rowsG.map List.length = nl := by
    apply List.ext_getElem?
    intro r
    by_cases hr : r < rowsG.length
    · rw [List.getElem?_map, List.getElem?_eq_getElem hr, (hrows r _ (List.getElem?_eq_getElem hr)).1]; rfl
    · rw [List.getElem?_eq_none (by simp; omega), List.getElem?_eq_none (by rw [← W.ranks_len]; omega)]
  have hghost : ∀ (r : Nat) (s : Rk), ranks[r]? = some s → ∀ q ∈ s.map.ghostIndex, Global nl q := by
    intro r s hs q hq
    exact (W.faithful hs).loc.range q hq
  have hval : ∀ q : Int, Global nl q → ∃ n : Nat, q = n ∧
      NodeRow G (pointLists nl flags).flatten n (rowsG.flatten[q.toNat]?.getD []) := by
    intro q hq
    obtain ⟨r, ho⟩ := owns_exists hq.1 hq.2
    obtain ⟨n, rfl⟩ := Int.eq_ofNat_of_zero_le hq.1
    have hr : r < rowsG.length := by rw [hrl, W.ranks_len]; exact ho.1
    have h1 := (hrows r _ (List.getElem?_eq_getElem hr))
    have h2 := ho.2
    have h3 := (List.getElem?_eq_some_iff.1 h1.1).2
    have hk : n - before nl r < rowsG[r].length := by
      obtain ⟨_, a, b⟩ := ho
      rw [h3] at b; omega
    have := flatten_at rowsG r (n - before nl r) _ _ (List.getElem?_eq_getElem hr) (List.getElem?_eq_getElem hk)
    rw [hnl, show before nl r + (n - before nl r) = n by omega] at this
    refine ⟨n, rfl, ?_⟩
    rw [Int.toNat_natCast, this]
    have h4 := h1.2 _ _ (List.getElem?_eq_getElem hk)
    rw [show before nl r + (n - before nl r) = n by omega] at h4
    exact h4
  obtain ⟨recs, c1, c2, c3⟩ := N2C.forRanks_all (fun _ (p : (Rk × List (List Int)) × (List (List Int) × List (Per.V3 × Nat))) => do
      let ghosts ← pull gn rowsG p.1.1.map.ghostIndex
      let c2n ← forRanks (fun _ c => newRow (p.1.2 ++ ghosts) c) 0 p.1.1.cells
      .ok (⟨p.2.2, c2n⟩ : Recr))
    (fun r p R => R.pts = p.2.2 ∧ ∀ (i : Nat) (c C : Cell), p.1.1.cells[i]? = some c → G[before cl r + i]? = some C →
      RowFor true (pointLists nl flags).flatten p.1.1 i c C (some R)) ((ranks.zip rowsG).zip loc) (fun r p hp => by
      obtain ⟨p1, p2⟩ := List.getElem?_zip_eq_some.1 hp
      obtain ⟨p3, p4⟩ := List.getElem?_zip_eq_some.1 p1
      have hpull := pull_spec ([] : List Int) (g := gn) rowsG (by rw [hnl]; exact W.built) p.1.1.map.ghostIndex
        (by rw [hnl]; exact fun q hq => hghost r _ p3 q hq)
      obtain ⟨h1, h2⟩ := hrows r _ p4
      have h3 := (W.coords r _ p3).1
      have h4 : p.1.2.length = p.1.1.coords.length := by rw [h1] at h3; exact Option.some.inj h3
      obtain ⟨c2n, e1, e2, e3⟩ := N2C.forRanks_all (fun _ c =>
          newRow (p.1.2 ++ p.1.1.map.ghostIndex.map (fun q => rowsG.flatten[q.toNat]?.getD [])) c)
        (fun i _ row => ∀ C, G[before cl r + i]? = some C → row.length = C.nodes.length ∧
          ∀ (j q : Nat), C.nodes[j]? = some (q : Int) →
            ∃ p : Nat, row[j]? = some (p : Int) ∧ (pointLists nl flags).flatten[p]? = some (q, mark true C j)) p.1.1.cells
        (fun i c hi => newRow_spec W p3 p.1.2 h4 h2 _ (fun q hq => hval q (hghost r _ p3 q hq)) hi)
      refine ⟨⟨p.2.2, c2n⟩, ?_, rfl, fun i c C hi hC => ?_⟩
      · rw [hpull, Res.ok_bind, e1, Res.ok_bind]
      · have hil : i < c2n.length := by rw [e2]; exact (List.getElem?_eq_some_iff.1 hi).1
        exact ⟨c2n[i], List.getElem?_eq_getElem hil, e3 i c _ hi (List.getElem?_eq_getElem hil) C hC⟩)
  have hcl : recs.length = ranks.length := by rw [c2, List.length_zip, List.length_zip]; omega
  refine ⟨recs, pointLists nl flags, ?_, ⟨by simpa using hcl, by simp [pointLists]; omega, pointLists_nodup W hF, mem_points_all W hF, ?_, ?_⟩⟩
  · rw [recreate, f1, Res.ok_bind, l1, Res.ok_bind, g1, Res.ok_bind, d1, Res.ok_bind, c1]
  · intro r s R l hs hR hl
    obtain ⟨rc, hrc, rfl⟩ := Option.map_eq_some_iff.1 ((List.getElem?_map ..).symm.trans hR)
    have hr := (List.getElem?_eq_some_iff.1 hs).1
    have hf : flags[r]? = some (flags[r]'(by omega)) := List.getElem?_eq_getElem _
    generalize flags[r] = f at hf
    obtain ⟨rows, b1, b2, b3⟩ := hloc r _ _ hs hf
    rw [pointLists_get nl flags r f hf] at hl; cases hl
    have hz : ((ranks.zip rowsG).zip loc)[r]? = some ((s, rowsG[r]'(by omega)), _) :=
      List.getElem?_zip_eq_some.2 ⟨List.getElem?_zip_eq_some.2 ⟨hs, List.getElem?_eq_getElem _⟩, b1⟩
    obtain ⟨e1, _⟩ := c3 r _ _ hz hrc
    simp only at e1
    have hfl := (f3 r s f hs hf).1
    refine ⟨?_, ?_, by simp [nPts, e1]⟩
    · simp only [outPts, e1, List.map_map]
      refine List.map_congr_left ?_
      rintro ⟨i, b⟩ hm
      obtain ⟨m1, _⟩ := (mem_points _ f rfl i b).1 hm
      have hil : i < s.coords.length := by omega
      simp only [Function.comp, val]
      have := (W.coords r s hs).2 i _ (List.getElem?_eq_getElem hil)
      rw [List.getD_eq_getElem?_getD, List.getElem?_eq_getElem hil, Option.getD_some, this]
      exact Prod.ext rfl (by simp)
    · intro e he
      exact ((mem_pointList W hF hf e.1 e.2).1 he).1
  · intro r s R hs hR i c C hi hC
    obtain ⟨rc, hrc, rfl⟩ := Option.map_eq_some_iff.1 ((List.getElem?_map ..).symm.trans hR)
    have hr := (List.getElem?_eq_some_iff.1 hs).1
    have hz : ((ranks.zip rowsG).zip loc)[r]? = some ((s, rowsG[r]'(by omega)), loc[r]'(by omega)) :=
      List.getElem?_zip_eq_some.2 ⟨List.getElem?_zip_eq_some.2 ⟨hs, List.getElem?_eq_getElem _⟩, List.getElem?_eq_getElem _⟩
    exact (c3 r _ _ hz hrc).2 i c C hi hC

/-- without periodicity the points are the nodes -/
theorem plain_spec (P : Per.Periodicity) (W : OnMesh false gn cl nl G X ranks) :
    ∃ LL, Prepared false P cl nl G X ranks (ranks.map (fun _ => none)) LL := by
  let LL : List (List (Nat × Mark)) := nl.zipIdx.map (fun p => (List.range p.1).map (fun i => (before nl p.2 + i, (0 : Mark))))
  have hget : ∀ (r n : Nat), nl[r]? = some n → LL[r]? = some ((List.range n).map (fun i => (before nl r + i, (0 : Mark)))) := by
    intro r n h
    rw [List.getElem?_map, List.getElem?_zipIdx, h]; simp
  have hlen : LL.length = nl.length := by simp [LL]
  have hlens : LL.map List.length = nl := by
    apply List.ext_getElem?
    intro r
    by_cases hr : r < nl.length
    · rw [List.getElem?_map, hget r _ (List.getElem?_eq_getElem hr), List.getElem?_eq_getElem hr]; simp
    · rw [List.getElem?_eq_none (by simp; omega), List.getElem?_eq_none (by omega)]
  have hall : LL.flatten = (List.range nl.sum).map (fun q => (q, (0 : Mark))) := by
    apply List.ext_getElem?
    intro q
    have hL : LL.flatten.length = nl.sum := by rw [List.length_flatten, hlens]
    by_cases hq : q < nl.sum
    · obtain ⟨r, ho⟩ := owns_exists (lens := nl) (q := (q : Int)) (by omega) (by omega)
      obtain ⟨hr, a, b⟩ := ho
      have := flatten_at LL r (q - before nl r) _ (q, 0) (hget r _ (List.getElem?_eq_getElem hr)) (by
        rw [List.getElem?_map, List.getElem?_range (by omega)]
        refine congrArg some ?_
        exact Prod.ext (by simp only; omega) rfl)
      rw [hlens, show before nl r + (q - before nl r) = q by omega] at this
      rw [this, List.getElem?_map, List.getElem?_range hq]; rfl
    · rw [List.getElem?_eq_none (by omega), List.getElem?_eq_none (by simp; omega)]
  have hL : ∀ q : Nat, q < nl.sum → LL.flatten[q]? = some (q, (0 : Mark)) := by
    intro q hq
    rw [hall, List.getElem?_map, List.getElem?_range hq]; rfl
  refine ⟨LL, ⟨by simp, by rw [hlen, W.ranks_len], ?_, ?_, ?_, ?_⟩⟩
  · rw [hall]
    exact List.nodup_range.map (fun a b h => (Prod.mk.inj h).1)
  · intro q b
    rw [hall]
    simp only [List.mem_map, List.mem_range, Prod.mk.injEq]
    constructor
    · rintro ⟨a, h1, rfl, rfl⟩; exact ⟨h1, Or.inl rfl⟩
    · rintro ⟨h1, h2⟩
      refine ⟨q, h1, rfl, ?_⟩
      rcases h2 with rfl | ⟨c, _, j, _, h⟩
      · rfl
      · rw [mark, if_neg (by simp)] at h; exact h
  · intro r s R l hs hR hl
    rw [List.getElem?_map, hs] at hR; cases hR
    have hn := (W.coords r s hs).1
    obtain ⟨hr, hn'⟩ := List.getElem?_eq_some_iff.1 hn
    rw [hget r _ hn] at hl; cases hl
    refine ⟨?_, ?_, by simp [nPts]⟩
    · apply List.ext_getElem?
      intro i
      by_cases hi : i < s.coords.length
      · have := (W.coords r s hs).2 i _ (List.getElem?_eq_getElem hi)
        rw [outPts, List.map_map, List.getElem?_map, List.getElem?_range hi]
        rw [show (s.coords.zip (List.range s.coords.length))[i]? = some (s.coords[i], i) from
          List.getElem?_zip_eq_some.2 ⟨List.getElem?_eq_getElem hi, List.getElem?_range hi⟩]
        simp only [Option.map_some, Function.comp]
        refine congrArg some (Prod.ext ?_ (by simp))
        exact this
      · rw [List.getElem?_eq_none (by simp [outPts]; omega), List.getElem?_eq_none (by simp; omega)]
    · intro e he
      obtain ⟨i, hi, rfl⟩ := List.mem_map.1 he
      rw [List.mem_range] at hi
      exact ⟨hr, by simp only; omega, by simp only; omega⟩
  · intro r s R hs hR i c C hi hC
    rw [List.getElem?_map, hs] at hR; cases hR
    obtain ⟨C', hC', h1, h2, h3, h4⟩ := (W.cells r s hs).2 i c hi
    rw [hC] at hC'; cases hC'
    intro j q hq
    have hjl : j < c.nodes.length := by rw [h3]; exact (List.getElem?_eq_some_iff.1 hq).1
    obtain ⟨h5, h6⟩ := h4 j _ _ hq (List.getElem?_eq_getElem hjl)
    have hgl := (W.good C (List.mem_of_getElem? hC)).2.2.1 _ (List.mem_of_getElem? hq)
    refine ⟨c.nodes[j], q, List.getElem?_eq_getElem hjl, ?_, ?_⟩
    · rw [local2Global, if_neg (by unfold Part.unInit; omega), if_neg (by omega)]
      exact (W.faithful hs).apply_of_name h6 hgl.1 h5
    · rw [hL q (by have := hgl.2; omega), mark, if_neg (by simp)]

end DNDSR.VtkOut
