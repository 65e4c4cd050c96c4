import Verif.Proof.VtkOutRecr

namespace DNDSR.VtkOut

open DNDSR.IMap DNDSR.Elem DNDSR.Bits DNDSR.Faces DNDSR.MeshAdj

variable {periodic : Bool} {gn : GOM} {cl nl : List Nat} {G : List Cell} {X : Nat → Per.V3} {ranks : List Rk}

/-- the points of all ranks, rank by rank -/
def pointLists (nl : List Nat) (flags : List (List Nat)) : List (List (Nat × Mark)) :=
  flags.zipIdx.map (fun p => (points p.1.length p.1).map (fun e => (before nl p.2 + e.1, BitVec.ofNat 8 e.2)))

theorem pointLists_get (nl : List Nat) (flags : List (List Nat)) (r : Nat) (f : List Nat) (h : flags[r]? = some f) :
    (pointLists nl flags)[r]? = some ((points f.length f).map (fun e => (before nl r + e.1, BitVec.ofNat 8 e.2))) := by
  rw [pointLists, List.getElem?_map, List.getElem?_zipIdx, h]; simp

/-- what the flags say after the exchange -/
def FlagsOk (nl : List Nat) (G : List Cell) (flags : List (List Nat)) : Prop :=
  flags.length = nl.length ∧ ∀ (r : Nat) (f : List Nat), flags[r]? = some f → nl[r]? = some f.length ∧
    ∀ j b, j < f.length → (bitAt f j b = true ↔ b = 0 ∨ ∃ bb : Mark, bb.toNat = b ∧ Seen true G (before nl r + j) bb)

theorem marks_lt (W : OnMesh true gn cl nl G X ranks) {q : Nat} {b : Mark} (h : Seen true G q b) : b.toNat < 8 := by
  obtain ⟨c, hc, j, hj, rfl⟩ := h
  obtain ⟨_, _, _, g4⟩ := W.good c hc
  obtain ⟨h1, h2⟩ := g4 rfl
  have hjl : j < c.pbi.length := by rw [h1]; exact (List.getElem?_eq_some_iff.1 hj).1
  rw [mark, if_pos rfl, List.getD_eq_getElem?_getD, List.getElem?_eq_getElem hjl]
  exact h2 _ (List.getElem_mem hjl)

theorem mark_ofNat (b : Nat) (hb : b < 8) : (BitVec.ofNat 8 b).toNat = b := by
  rw [BitVec.toNat_ofNat]; omega

theorem mark_toNat (b : Mark) : BitVec.ofNat 8 b.toNat = b := by simp

theorem mem_pointList (W : OnMesh true gn cl nl G X ranks) {flags : List (List Nat)} (hF : FlagsOk nl G flags) {r : Nat} {f : List Nat}
    (hf : flags[r]? = some f) (q : Nat) (b : Mark) :
    (q, b) ∈ (points f.length f).map (fun e => (before nl r + e.1, BitVec.ofNat 8 e.2)) ↔
      Owns nl r q ∧ (b = 0 ∨ Seen true G q b) := by
  obtain ⟨h1, h2⟩ := hF.2 r f hf
  obtain ⟨hr, hn⟩ := List.getElem?_eq_some_iff.1 h1
  rw [List.mem_map]
  constructor
  · rintro ⟨⟨i, c⟩, hm, he⟩
    simp only [Prod.mk.injEq] at he
    obtain ⟨rfl, rfl⟩ := he
    obtain ⟨m1, m2⟩ := (mem_points _ f rfl i c).1 hm
    refine ⟨⟨hr, by omega, by rw [hn]; omega⟩, ?_⟩
    rcases m2 with rfl | ⟨c1, c2, c3⟩
    · exact Or.inl rfl
    · rcases (h2 i c m1).1 c3 with rfl | ⟨bb, rfl, hs⟩
      · exact Or.inl rfl
      · rw [mark_toNat]; exact Or.inr hs
  · rintro ⟨⟨_, a1, a2⟩, hb⟩
    rw [hn] at a2
    have hq : q = before nl r + (q - before nl r) := by omega
    refine ⟨(q - before nl r, b.toNat), (mem_points _ f rfl _ _).2 ⟨by omega, ?_⟩, ?_⟩
    · by_cases h0 : b.toNat = 0
      · exact Or.inl h0
      · refine Or.inr ⟨by omega, ?_, ?_⟩
        · rcases hb with rfl | hb
          · exact absurd rfl h0
          · have := marks_lt W hb; omega
        · refine (h2 _ _ (by omega)).2 ?_
          rcases hb with rfl | hb
          · exact absurd rfl h0
          · exact Or.inr ⟨b, rfl, by rw [← hq]; exact hb⟩
    · simp only [mark_toNat, ← hq]

theorem pointLists_nodup (W : OnMesh true gn cl nl G X ranks) {flags : List (List Nat)} (hF : FlagsOk nl G flags) :
    (pointLists nl flags).flatten.Nodup := by
  have hl : (pointLists nl flags).length = flags.length := by simp [pointLists]
  have hget : ∀ (r : Nat) (l : List (Nat × Mark)), (pointLists nl flags)[r]? = some l → ∃ f, flags[r]? = some f ∧
      l = (points f.length f).map (fun e => (before nl r + e.1, BitVec.ofNat 8 e.2)) := by
    intro r l hr
    have hrl : r < flags.length := by rw [← hl]; exact (List.getElem?_eq_some_iff.1 hr).1
    have h1 := pointLists_get nl flags r _ (List.getElem?_eq_getElem hrl)
    rw [hr] at h1
    exact ⟨_, List.getElem?_eq_getElem hrl, Option.some.inj h1⟩
  rw [List.nodup_flatten]
  constructor
  · intro l hm
    obtain ⟨r, hr⟩ := List.mem_iff_getElem?.1 hm
    obtain ⟨f, hf, rfl⟩ := hget r l hr
    refine List.Nodup.map_on ?_ (points_nodup _ _)
    rintro ⟨i, b⟩ h1 ⟨i', b'⟩ h2 he
    simp only [Prod.mk.injEq] at he
    have b1 := (mem_points _ f rfl i b).1 h1
    have b2 := (mem_points _ f rfl i' b').1 h2
    have e := congrArg BitVec.toNat he.2
    rw [mark_ofNat b (by omega), mark_ofNat b' (by omega)] at e
    simp only [Prod.mk.injEq]
    exact ⟨by omega, e⟩
  · rw [List.pairwise_iff_getElem]
    intro i j hi hj hij
    obtain ⟨f, hf, e1⟩ := hget i _ (List.getElem?_eq_getElem hi)
    obtain ⟨f', hf', e2⟩ := hget j _ (List.getElem?_eq_getElem hj)
    rw [e1, e2]
    rintro ⟨q, b⟩ h1 h2
    have o1 := ((mem_pointList W hF hf q b).1 h1).1
    have o2 := ((mem_pointList W hF hf' q b).1 h2).1
    have := owns_unique o1 o2
    omega

theorem mem_points_all (W : OnMesh true gn cl nl G X ranks) {flags : List (List Nat)} (hF : FlagsOk nl G flags) (q : Nat) (b : Mark) :
    (q, b) ∈ (pointLists nl flags).flatten ↔ q < nl.sum ∧ (b = 0 ∨ Seen true G q b) := by
  rw [List.mem_flatten]
  constructor
  · rintro ⟨l, hl, hm⟩
    obtain ⟨r, hr⟩ := List.mem_iff_getElem?.1 hl
    have hrl : r < flags.length := by
      have := (List.getElem?_eq_some_iff.1 hr).1
      simpa [pointLists] using this
    rw [pointLists_get nl flags r _ (List.getElem?_eq_getElem hrl)] at hr
    cases hr
    obtain ⟨h1, h2⟩ := (mem_pointList W hF (List.getElem?_eq_getElem hrl) q b).1 hm
    have := owns_range h1
    exact ⟨by omega, h2⟩
  · rintro ⟨h1, h2⟩
    obtain ⟨r, ho⟩ := owns_exists (lens := nl) (q := (q : Int)) (by omega) (by omega)
    have hrl : r < flags.length := by rw [hF.1]; exact ho.1
    exact ⟨_, List.mem_of_getElem? (pointLists_get nl flags r _ (List.getElem?_eq_getElem hrl)),
      (mem_pointList W hF (List.getElem?_eq_getElem hrl) q b).2 ⟨ho, h2⟩⟩

/-- the row of node `q` in global numbers -/
def NodeRow (G : List Cell) (L : List (Nat × Mark)) (q : Nat) (row : List Int) : Prop :=
  ∀ b : Mark, b = 0 ∨ Seen true G q b → ∃ p : Nat, row[b.toNat]? = some (p : Int) ∧ L[p]? = some (q, b)

theorem toGlobal_spec (W : OnMesh true gn cl nl G X ranks) {flags : List (List Nat)} (hF : FlagsOk nl G flags) {g : GOM}
    (hg : Built ((pointLists nl flags).map List.length) g) {r : Nat} {f : List Nat} (hf : flags[r]? = some f) (rows : List (List Int))
    (hl : rows.length = f.length)
    (hrow : ∀ (k x : Nat) (row : List Int), f[k]? = some x → rows[k]? = some row → RowOk k x f.length (made 0 f) row) :
    ∃ rowsG, toGlobal g r rows = .ok rowsG ∧ rowsG.length = f.length ∧
      ∀ (k : Nat) (row : List Int), rowsG[k]? = some row → NodeRow G (pointLists nl flags).flatten (before nl r + k) row := by
  have hP := pointLists_get nl flags r f hf
  have hrP : r < (pointLists nl flags).length := (List.getElem?_eq_some_iff.1 hP).1
  have hlen : ((pointLists nl flags).map List.length)[r]'(by simpa using hrP) = (points f.length f).length := by
    rw [List.getElem_map, (List.getElem?_eq_some_iff.1 hP).2, List.length_map]
  obtain ⟨rowsG, e1, e2, e3⟩ := N2C.forRanks_all
    (fun _ row => forRanks (fun _ v => if v ≠ unInit then g.apply r v else .ok v) 0 row)
    (fun k _ row' => NodeRow G (pointLists nl flags).flatten (before nl r + k) row') rows (fun k row hk => by
      have hkl : k < f.length := by rw [← hl]; exact (List.getElem?_eq_some_iff.1 hk).1
      have ho := hrow k _ row (List.getElem?_eq_getElem hkl) hk
      obtain ⟨row', d1, d2, d3⟩ := N2C.forRanks_all (fun _ v => if v ≠ unInit then g.apply r v else .ok v)
        (fun _ v w => ∀ p : Nat, v = p → w = ((before ((pointLists nl flags).map List.length) r + p : Nat) : Int)) row (fun b v hv => by
          have hb : b < 8 := by rw [← ho.len]; exact (List.getElem?_eq_some_iff.1 hv).1
          by_cases hset : b = 0 ∨ f[k].testBit b = true
          · obtain ⟨p, p1, p2⟩ := ho.points hkl b hb hset
            rw [hv] at p1; cases p1
            have hpl := (List.getElem?_eq_some_iff.1 p2).1
            refine ⟨(before ((pointLists nl flags).map List.length) r : Int) + p, ?_, fun p' hp' => by
              have : p = p' := by omega
              subst this; push_cast; rfl⟩
            rw [if_pos (by unfold unInit; omega), apply_eq hg r (by simpa using hrP), if_pos (by rw [hlen]; omega)]
          · rw [not_or] at hset
            have := ho.no b (by omega) (by omega) (by simpa using hset.2)
            rw [hv] at this; cases this
            exact ⟨unInit, by rw [if_neg (by simp)], fun p hp => by unfold unInit at hp; omega⟩)
      refine ⟨row', d1, fun b hb => ?_⟩
      have hb8 : b.toNat < 8 := by
        rcases hb with rfl | hb
        · simp
        · exact marks_lt W hb
      have hset : b.toNat = 0 ∨ f[k].testBit b.toNat = true := by
        rcases hb with rfl | hb
        · exact Or.inl rfl
        · have := ((hF.2 r f hf).2 k b.toNat hkl).2 (Or.inr ⟨b, rfl, hb⟩)
          rw [bitAt, List.getElem?_eq_getElem hkl] at this
          exact Or.inr this
      obtain ⟨p, p1, p2⟩ := ho.points hkl b.toNat hb8 hset
      have hbl : b.toNat < row'.length := by rw [d2, ho.len]; exact hb8
      have := d3 b.toNat _ _ p1 (List.getElem?_eq_getElem hbl) p rfl
      refine ⟨_, by rw [List.getElem?_eq_getElem hbl, this], ?_⟩
      refine flatten_at _ r p _ _ hP ?_
      rw [List.getElem?_map, p2]
      simp only [Option.map_some, mark_toNat])
  exact ⟨rowsG, e1, by omega, fun k row hk => e3 k (rows[k]'(by rw [← e2]; exact (List.getElem?_eq_some_iff.1 hk).1)) row
    (List.getElem?_eq_getElem _) hk⟩

/-- the new row of a cell -/
theorem newRow_spec (W : OnMesh true gn cl nl G X ranks) {L : List (Nat × Mark)} {r : Nat} {s : Rk} (hs : ranks[r]? = some s)
    (own : List (List Int)) (hol : own.length = s.coords.length)
    (ho : ∀ (k : Nat) (row : List Int), own[k]? = some row → NodeRow G L (before nl r + k) row)
    (val : Int → List Int) (hv : ∀ q ∈ s.map.ghostIndex, ∃ n : Nat, q = n ∧ NodeRow G L n (val q)) {i : Nat} {c : Cell} (hi : s.cells[i]? = some c) :
    ∃ row, newRow (own ++ s.map.ghostIndex.map val) c = .ok row ∧
      ∀ C, G[before cl r + i]? = some C → row.length = C.nodes.length ∧
        ∀ (j q : Nat), C.nodes[j]? = some (q : Int) → ∃ p : Nat, row[j]? = some (p : Int) ∧ L[p]? = some (q, mark true C j) := by
  obtain ⟨C, hC, h1, h2, h3, h4⟩ := (W.cells r s hs).2 i c hi
  have hcG := List.mem_of_getElem? hC
  obtain ⟨_, _, g3, g4⟩ := W.good C hcG
  obtain ⟨hp, _⟩ := W.row hs (List.mem_of_getElem? hi)
  have hn := (W.coords r s hs).1
  obtain ⟨row, e1, e2, e3⟩ := N2C.forRanks_all (fun _ (e : Int × Mark) => do
      let row ← at64 (own ++ s.map.ghostIndex.map val) e.1
      if e.2 ≠ 0 then do
        let v ← at64 row e.2.toNat
        Res.assert (v ≠ unInit)
        .ok v
      else at64 row 0)
    (fun j _ v => ∀ q : Nat, C.nodes[j]? = some (q : Int) → ∃ p : Nat, v = p ∧ L[p]? = some (q, mark true C j))
    (c.nodes.zip c.pbi) (fun j e he => by
      obtain ⟨e1, e2⟩ := List.getElem?_zip_eq_some.1 he
      have hjl : j < C.nodes.length := by rw [← h3]; exact (List.getElem?_eq_some_iff.1 e1).1
      have hgl := g3 _ (List.getElem_mem hjl)
      obtain ⟨h5, h6⟩ := h4 j _ _ (List.getElem?_eq_getElem hjl) e1
      obtain ⟨q, hq⟩ := Int.eq_ofNat_of_zero_le hgl.1
      rw [hq] at hgl h6
      have hm : mark true C j = e.2 := by
        rw [mark, if_pos rfl, List.getD_eq_getElem?_getD, ← h2, e2]; rfl
      have hseen : Seen true G q e.2 := ⟨C, hcG, j, by rw [List.getElem?_eq_getElem hjl, hq], hm⟩
      obtain ⟨w, hw⟩ := Int.eq_ofNat_of_zero_le h5
      have hrow : ∃ row, (own ++ s.map.ghostIndex.map val)[w]? = some row ∧ NodeRow G L q row := by
        rw [hw] at h6
        by_cases hwn : w < s.coords.length
        · have := localName_own ⟨_, hn, hwn⟩ hgl h6
          have hwo : w < own.length := by omega
          refine ⟨own[w], by rw [List.getElem?_append_left hwo, List.getElem?_eq_getElem hwo], ?_⟩
          rw [show q = before nl r + w by omega]
          exact ho w _ (List.getElem?_eq_getElem hwo)
        · obtain ⟨k, hk⟩ := Nat.exists_eq_add_of_le (Nat.le_of_not_lt hwn)
          rw [hk] at h6
          have hgk := localName_ghost hn hgl h6
          obtain ⟨n, n1, n2⟩ := hv _ (List.mem_of_getElem? hgk)
          refine ⟨val (q : Int), ?_, by rw [show q = n by omega] at n2 ⊢; exact n2⟩
          rw [List.getElem?_append_right (by omega), show w - own.length = k by omega, List.getElem?_map, hgk]; rfl
      obtain ⟨row, r1, r2⟩ := hrow
      obtain ⟨p, p1, p2⟩ := r2 e.2 (Or.inr hseen)
      refine ⟨(p : Int), ?_, fun q' hq' => ⟨p, rfl, ?_⟩⟩
      · rw [hw, at64_ok r1, Res.ok_bind]
        by_cases hb : e.2 = 0
        · rw [if_neg (by simpa using hb)]
          rw [hb] at p1
          exact at64_ok (i := 0) p1
        · rw [if_pos hb, at64_ok p1, Res.ok_bind, Res.assert_true _ (by unfold unInit; omega), Res.ok_bind]
      · rw [List.getElem?_eq_getElem hjl, hq] at hq'
        rw [hm, p2]
        have := Option.some.inj hq'
        congr 2
        omega)
  have hzl : (c.nodes.zip c.pbi).length = C.nodes.length := by rw [List.length_zip]; omega
  refine ⟨row, ?_, ?_⟩
  · rw [newRow, entries, if_pos hp, Res.ok_bind, e1]
  · intro C' hC'
    rw [hC] at hC'; cases hC'
    refine ⟨by omega, fun j q hq => ?_⟩
    have hjl := (List.getElem?_eq_some_iff.1 hq).1
    have hjr : j < row.length := by omega
    obtain ⟨p, p1, p2⟩ := e3 j ((c.nodes.zip c.pbi)[j]'(by omega)) _ (List.getElem?_eq_getElem _) (List.getElem?_eq_getElem hjr) q hq
    exact ⟨p, by rw [List.getElem?_eq_getElem hjr, p1], p2⟩

end DNDSR.VtkOut
