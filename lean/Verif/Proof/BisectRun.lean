import Verif.Proof.BisectTables
import Verif.Proof.ElevChoose
import Verif.Proof.ElevSpan

/-!
# What the cut does on one rank
-/

namespace DNDSR.Bisect

open DNDSR.IMap DNDSR.MeshAdj DNDSR.Faces DNDSR.Elev
open DNDSR.Elem hiding V3
open DNDSR.Bits (Mark)
open DNDSR.Per (V3 Periodicity)

variable {per : Bool} {P : Periodicity} {X : Int → V3} {nl cl : List Nat} {x : Rank}

theorem bisect_extract {α : Type} [Inhabited α] (d : α) (t : ElemType) (ht : order t = 2) {v i : Nat} (hv : v < (bisectVariants t).toNat)
    (hi : i < (bisectNum t).toNat) (nodes : List α) (hn : nodes.length = (numNodes t).toNat) :
    extractBisect t i v nodes = .ok ((part t v i).map (fun k => nodes[k]?.getD d)) := by
  have h := ((bisection_measure t ht v (List.mem_range.2 hv)).1 i (List.mem_range.2 hi)).1
  have hlt := (part_lengths t ht v (List.mem_range.2 hv) i (List.mem_range.2 hi)).2.2
  have e : (part t v i).map (fun k => nodes[k]?.getD d) = (part t v i).map (fun k => nodes[k]?.getD default) := by
    refine List.map_congr_left ?_
    intro k hk
    have : k < nodes.length := by rw [hn]; exact hlt k hk
    simp [List.getElem?_eq_getElem this]
  rw [e]
  conv => lhs; rw [← locals_map t nodes hn]
  unfold extractBisect at h ⊢
  have a1 : (i : Int) < bisectNum t := by omega
  have a2 : 0 ≤ (v : Int) ∧ (v : Int) < bisectVariants t := by omega
  rw [Res.assert_true _ a1, Res.ok_bind, Res.assert_true _ a2, Res.ok_bind] at h ⊢
  cases hr : row (bisectList t) (i + bisectNum t * v) with
  | ok r =>
    rw [hr, Res.ok_bind] at h
    rw [Res.ok_bind, pickAll_map, h, Res.ok_bind]
  | abort => rw [hr] at h; cases h
  | ub => rw [hr] at h; cases h

theorem nodeAt_spec (h : RankOk per X nl cl x) {q : Int} (hq0 : 0 ≤ q) (hq : Owns nl x.rank q ∨ q ∈ x.nodeMap.ghostIndex) :
    nodeAt x.nodeMap x.coords q = .ok (X q) := by
  obtain ⟨v, e, hn⟩ := h.map.faithful.global2Local_eq q (by unfold Part.unInit; omega)
  have hv : 0 ≤ v := by
    rcases hn with ⟨⟨_, h1, _⟩, h3⟩ | ⟨_, k, _, n, _, h3⟩ | ⟨h1, h2, _⟩
    · omega
    · omega
    · rcases hq with hq | hq
      · exact absurd hq h1
      · exact absurd hq h2
  rw [nodeAt, e, Res.ok_bind, Res.assert_true _ hv, Res.ok_bind, at64, if_pos hv]
  exact (idx_ok_iff _ _ _).2 (h.coords q v hq0 hv hn)

theorem cellCoords_eq (h : RankOk per X nl cl x) {c : Int × Cell} (hc : c ∈ x.cells) :
    cellCoords per P x.nodeMap x.coords c.2 = .ok ((List.range (numNodes c.2.type).toNat).map (seen per P X c.2)) := by
  obtain ⟨_, hl, hpb⟩ := h.order c hc
  unfold cellCoords
  rw [forRanks_ok]
  refine ⟨by simp [hl], ?_⟩
  intro i q hq
  have hi : i < (numNodes c.2.type).toNat := by rw [← hl]; exact (List.getElem?_eq_some_iff.1 hq).1
  refine ⟨_, by rw [List.getElem?_map, List.getElem?_range hi]; rfl, ?_⟩
  obtain ⟨h0, hk⟩ := h.nodes c hc q (List.mem_of_getElem? hq)
  rw [nodeAt_spec h h0 hk, Res.ok_bind, Nat.zero_add]
  cases per with
  | false => simp [seen, hq]
  | true =>
    have hb : c.2.pbi[i]? = some (c.2.pbi[i]'(by rw [hpb rfl, hl]; exact hi)) := List.getElem?_eq_getElem (by rw [hpb rfl, hl]; exact hi)
    rw [if_pos rfl, (idx_ok_iff _ _ _).2 hb, Res.ok_bind, coordByBits_eq]
    simp [seen, hq, hb]

theorem length_eq {xs : List V3} {a b : Nat} {y z : V3} (ha : xs[a]? = some y) (hb : xs[b]? = some z) :
    length xs a b = .ok (Real.sqrt (Per.dist2 y z)) := by
  rw [length, (idx_ok_iff _ _ _).2 ha, Res.ok_bind, (idx_ok_iff _ _ _).2 hb, Res.ok_bind, dist2_eq]

theorem dist2_nonneg (a b : V3) : 0 ≤ Per.dist2 a b := by
  rw [← dist2_eq, sqrDist]; positivity

theorem sqrt_cmp {a b : ℝ} (hb : 0 ≤ b) (h : ¬ Real.sqrt b < Real.sqrt a) : a ≤ b :=
  (Real.sqrt_le_sqrt_iff hb).1 (not_lt.1 h)

theorem argMin3 {a b c : ℝ} (hb : 0 ≤ b) (hc : 0 ≤ c) :
    let v := argMin (Real.sqrt a) 0 1 [Real.sqrt b, Real.sqrt c]
    (v = 0 ∧ a ≤ b ∧ a ≤ c) ∨ (v = 1 ∧ b ≤ a ∧ b ≤ c) ∨ (v = 2 ∧ c ≤ a ∧ c ≤ b) := by
  simp only [argMin]
  by_cases h1 : Real.sqrt b < Real.sqrt a
  · rw [if_pos h1]
    by_cases h2 : Real.sqrt c < Real.sqrt b
    · rw [if_pos h2]
      have e1 := (Real.sqrt_lt_sqrt_iff hb).1 h1
      have e2 := (Real.sqrt_lt_sqrt_iff hc).1 h2
      exact Or.inr (Or.inr ⟨rfl, by linarith, by linarith⟩)
    · rw [if_neg h2]
      exact Or.inr (Or.inl ⟨rfl, ((Real.sqrt_lt_sqrt_iff hb).1 h1).le, sqrt_cmp hc h2⟩)
  · rw [if_neg h1]
    have e1 := sqrt_cmp hb h1
    by_cases h2 : Real.sqrt c < Real.sqrt a
    · rw [if_pos h2]
      have e2 := (Real.sqrt_lt_sqrt_iff hc).1 h2
      exact Or.inr (Or.inr ⟨rfl, by linarith, by linarith⟩)
    · rw [if_neg h2]
      exact Or.inl ⟨rfl, e1, sqrt_cmp hc h2⟩

theorem argMin2 {a b : ℝ} (hb : 0 ≤ b) :
    let v := argMin (Real.sqrt a) 0 1 [Real.sqrt b]
    (v = 0 ∧ a ≤ b) ∨ (v = 1 ∧ b ≤ a) := by
  simp only [argMin]
  by_cases h1 : Real.sqrt b < Real.sqrt a
  · rw [if_pos h1]; exact Or.inr ⟨rfl, ((Real.sqrt_lt_sqrt_iff hb).1 h1).le⟩
  · rw [if_neg h1]; exact Or.inl ⟨rfl, sqrt_cmp hb h1⟩

theorem variant_zero {t : ElemType} (ht : order t = 2) (h1 : t ≠ .tet10) (h2 : t ≠ .pyramid14) (xs : List V3) : variant t xs = .ok 0 := by
  cases t <;> first | exact absurd rfl h1 | exact absurd rfl h2 | (simp only [variant, Res.assert_true _ ht, Res.ok_bind])

/-- the table that is chosen -/
theorem variant_spec (C : Cell) (ho : order C.type = 2) :
    ∃ v, variant C.type ((List.range (numNodes C.type).toNat).map (seen per P X C)) = .ok v ∧ v < (bisectVariants C.type).toNat ∧
      ∀ w, w < (bisectVariants C.type).toNat → diagonalLength per P X C v ≤ diagonalLength per P X C w := by
  obtain ⟨t, ns, bs⟩ := C
  by_cases h1 : t = .tet10
  · subst h1
    set C : Cell := ⟨.tet10, ns, bs⟩ with hC
    have g : ∀ k, k < 10 → ((List.range (numNodes ElemType.tet10).toNat).map (seen per P X C))[k]? = some (seen per P X C k) := by
      intro k hk
      rw [List.getElem?_map, List.getElem?_range (show k < (numNodes ElemType.tet10).toNat from hk)]; rfl
    have n := fun a b => dist2_nonneg (seen per P X C a) (seen per P X C b)
    refine ⟨_, by
      show variant .tet10 _ = _
      simp only [variant]
      rw [Res.assert_true _ (show order ElemType.tet10 = 2 from ho), Res.ok_bind]
      rw [length_eq (g _ (by omega)) (g _ (by omega)), Res.ok_bind, length_eq (g _ (by omega)) (g _ (by omega)), Res.ok_bind,
        length_eq (g _ (by omega)) (g _ (by omega)), Res.ok_bind], ?_⟩
    have k3 : ∀ w, w < (bisectVariants C.type).toNat → w = 0 ∨ w = 1 ∨ w = 2 := by
      intro w hw
      have : w < 3 := hw
      omega
    rcases argMin3 (a := Per.dist2 (seen per P X C (5 - 1)) (seen per P X C (10 - 1))) (n (6 - 1) (8 - 1)) (n (7 - 1) (9 - 1)) with ⟨e, e1, e2⟩ | ⟨e, e1, e2⟩ | ⟨e, e1, e2⟩ <;> rw [e]
    · refine ⟨by show 0 < 3; omega, fun w hw => ?_⟩
      rcases k3 w hw with rfl | rfl | rfl
      · exact le_refl _
      · exact e1
      · exact e2
    · refine ⟨by show 1 < 3; omega, fun w hw => ?_⟩
      rcases k3 w hw with rfl | rfl | rfl
      · exact e1
      · exact le_refl _
      · exact e2
    · refine ⟨by show 2 < 3; omega, fun w hw => ?_⟩
      rcases k3 w hw with rfl | rfl | rfl
      · exact e1
      · exact e2
      · exact le_refl _
  · by_cases h2 : t = .pyramid14
    · subst h2
      set C : Cell := ⟨.pyramid14, ns, bs⟩ with hC
      have g : ∀ k, k < 14 → ((List.range (numNodes ElemType.pyramid14).toNat).map (seen per P X C))[k]? = some (seen per P X C k) := by
        intro k hk
        rw [List.getElem?_map, List.getElem?_range (show k < (numNodes ElemType.pyramid14).toNat from hk)]; rfl
      have n := fun a b => dist2_nonneg (seen per P X C a) (seen per P X C b)
      refine ⟨_, by
        show variant .pyramid14 _ = _
        simp only [variant]
        rw [Res.assert_true _ (show order ElemType.pyramid14 = 2 from ho), Res.ok_bind]
        rw [length_eq (g _ (by omega)) (g _ (by omega)), Res.ok_bind, length_eq (g _ (by omega)) (g _ (by omega)), Res.ok_bind], ?_⟩
      have k3 : ∀ w, w < (bisectVariants C.type).toNat → w = 0 ∨ w = 1 := by
        intro w hw
        have : w < 2 := hw
        omega
      rcases argMin2 (a := Per.dist2 (seen per P X C (10 - 1)) (seen per P X C (12 - 1))) (n (11 - 1) (13 - 1)) with ⟨e, e1⟩ | ⟨e, e1⟩ <;> rw [e]
      · refine ⟨by show 0 < 2; omega, fun w hw => ?_⟩
        rcases k3 w hw with rfl | rfl
        · exact le_refl _
        · exact e1
      · refine ⟨by show 1 < 2; omega, fun w hw => ?_⟩
        rcases k3 w hw with rfl | rfl
        · exact e1
        · exact le_refl _
    · have hb : bisectVariants t = 1 := by cases t <;> first | rfl | exact absurd rfl h1 | exact absurd rfl h2
      refine ⟨0, variant_zero ho h1 h2 _, by simp [hb], ?_⟩
      intro w hw
      simp only [hb] at hw
      have : w = 0 := by omega
      rw [this]

theorem cutCell_spec {v : Nat} {z : Int} {C : Cell} (ho : order C.type = 2) (hl : C.nodes.length = (numNodes C.type).toNat)
    (hpb : per = true → C.pbi.length = C.nodes.length) (hv : v < (bisectVariants C.type).toNat) :
    cutCell per v z C = .ok ((List.range (bisectNum C.type).toNat).map (fun i => (z, child per v C i))) := by
  rw [cutCell, forRanks_ok]
  refine ⟨by simp, ?_⟩
  intro i u hu
  have hi : i < (bisectNum C.type).toNat := by simpa using (List.getElem?_eq_some_iff.1 hu).1
  refine ⟨_, by rw [List.getElem?_map, List.getElem?_range hi]; rfl, ?_⟩
  rw [Nat.zero_add, bisect_extract 0 C.type ho hv hi C.nodes hl, Res.ok_bind]
  cases per with
  | false => rfl
  | true =>
    simp only [if_true]
    rw [bisect_extract 0#8 C.type ho hv hi C.pbi (by rw [hpb rfl, hl]), Res.ok_bind]
    rfl

theorem cutBnd_spec {t : ElemType} {b : Ghost.Bnd} (ho : order t = 2) (hl : b.nodes.length = (numNodes t).toNat) :
    cutBnd t 0 b = .ok ((List.range (bisectNum t).toNat).map (childBnd t b)) := by
  rw [cutBnd, forRanks_ok]
  refine ⟨by simp, ?_⟩
  intro i u hu
  have hi : i < (bisectNum t).toNat := by simpa using (List.getElem?_eq_some_iff.1 hu).1
  refine ⟨_, by rw [List.getElem?_map, List.getElem?_range hi]; rfl, ?_⟩
  have hv : 0 < (bisectVariants t).toNat := by cases t <;> decide
  rw [Nat.zero_add, bisect_extract 0 t ho hv hi b.nodes hl, Res.ok_bind]
  rfl

theorem seekNode_some (q : Int) : ∀ (l : List (Int × V3)) (d : Option V3), (d.isSome ∨ ∃ p ∈ l, p.1 = q) → ∃ y, seekNode q d l = some y := by
  intro l
  induction l with
  | nil =>
    intro d h
    rcases h with h | ⟨p, hp, _⟩
    · exact Option.isSome_iff_exists.1 h
    · cases hp
  | cons a l ih =>
    intro d h
    simp only [seekNode]
    by_cases ha : a.1 = q
    · rw [if_pos ha]; exact ih _ (Or.inl rfl)
    · rw [if_neg ha]
      refine ih d ?_
      rcases h with h | ⟨p, hp, e⟩
      · exact Or.inl h
      · rcases List.mem_cons.1 hp with rfl | hp
        · exact absurd e ha
        · exact Or.inr ⟨p, hp, e⟩

theorem bndCoords_total {C : Cell} {xs : List V3} (hxs : xs.length = C.nodes.length) {nodes : List Int} (h : ∀ q ∈ nodes, q ∈ C.nodes) :
    ∃ ys, bndCoords C xs nodes = .ok ys := by
  refine forRanks_total _ nodes 0 ?_
  intro i q hq
  have hm := h q (List.mem_of_getElem? hq)
  obtain ⟨k, hk, rfl⟩ := List.getElem_of_mem hm
  obtain ⟨y, e⟩ := seekNode_some C.nodes[k] (C.nodes.zip xs) none (Or.inr ⟨(C.nodes[k], xs[k]'(by omega)), by
    have hkz : k < (C.nodes.zip xs).length := by simp; omega
    have := List.getElem_mem hkz
    rwa [List.getElem_zip] at this, rfl⟩)
  exact ⟨y, by rw [e]⟩

theorem doBnd_spec (h : RankOk per X nl cl x) {b : ElemType × Ghost.Bnd × Int} (hb : b ∈ x.bnds) :
    doBnd per P x b = .ok ((List.range (bisectNum b.1).toNat).map (childBnd b.1 b.2.1)) := by
  obtain ⟨ho, hd, hl, hown, hin⟩ := h.bnds b hb
  have hr := hown
  obtain ⟨hrl, h1, h2⟩ := hr
  have hsz := h.size
  rw [List.getElem?_eq_getElem hrl] at hsz
  have hsz := Option.some.inj hsz
  have hi : (b.2.2 - before cl x.rank).toNat < x.cells.length := by omega
  have hc := List.getElem?_eq_getElem hi
  set c := x.cells[(b.2.2 - before cl x.rank).toNat] with hcd
  have hcm : c ∈ x.cells := List.mem_of_getElem? hc
  have e0 : global2LocalNoSon x.cellGlob x.rank b.2.2 = .ok (b.2.2 - before cl x.rank) := by
    rw [global2LocalNoSon, if_neg (by unfold Part.unInit; omega), search_of_owns h.glob hown, Res.ok_bind]
    simp
  have hge : b.2.2 - (before cl x.rank : Int) ≥ 0 := by omega
  obtain ⟨ys, ey⟩ := bndCoords_total (C := c.2) (xs := (List.range (numNodes c.2.type).toNat).map (seen per P X c.2))
    (by simp [(h.order c hcm).2.1]) (hin c hc)
  rw [doBnd, e0, Res.ok_bind, Res.assert_true _ hge, Res.ok_bind, at64, if_pos hge, (idx_ok_iff _ _ _).2 hc, Res.ok_bind,
    cellCoords_eq h hcm, Res.ok_bind, ey, Res.ok_bind, variant_zero ho, Res.ok_bind, cutBnd_spec ho hl]
  · intro e; rw [e] at hd; exact absurd hd (by decide)
  · intro e; rw [e] at hd; exact absurd hd (by decide)

theorem bisect_rank (h : RankOk per X nl cl x) : ∃ V, Chosen per P X x.cells V ∧
    bisect per P x = .ok ⟨childCells per x.cells V, childBnds (x.bnds.map (fun b => (b.1, b.2.1))), x.coords.take x.nodeMap.mainSize⟩ := by
  have hcell : ∀ c ∈ x.cells, ∃ v, (v < (bisectVariants c.2.type).toNat ∧
      ∀ w, w < (bisectVariants c.2.type).toNat → diagonalLength per P X c.2 v ≤ diagonalLength per P X c.2 w) ∧
      doCell per P x c = .ok ((List.range (bisectNum c.2.type).toNat).map (fun i => (c.1, child per v c.2 i))) := by
    intro c hc
    obtain ⟨ho, hl, hpb⟩ := h.order c hc
    obtain ⟨v, e, hv, hm⟩ := variant_spec (per := per) (P := P) (X := X) c.2 ho
    exact ⟨v, ⟨hv, hm⟩, by rw [doCell, cellCoords_eq h hc, Res.ok_bind, e, Res.ok_bind, cutCell_spec ho hl hpb hv]⟩
  choose! F hF using hcell
  refine ⟨x.cells.map F, ⟨by simp, ?_⟩, ?_⟩
  · intro i c v hc hv
    rw [List.getElem?_map, hc] at hv
    cases hv
    exact (hF c (List.mem_of_getElem? hc)).1
  · have hbad : hasBad okO2 (x.cells.map (fun c => c.2.type) ++ x.ghostTypes) = 0 := by
      rw [hasBad_eq]
      intro t ht
      rw [okO2_iff]
      rcases List.mem_append.1 ht with ht | ht
      · obtain ⟨c, hc, rfl⟩ := List.mem_map.1 ht
        exact (h.order c hc).1
      · exact h.ghosts t ht
    have e1 : forRanks (fun _ c => doCell per P x c) 0 x.cells =
        .ok (x.cells.map (fun c => (List.range (bisectNum c.2.type).toNat).map (fun i => (c.1, child per (F c) c.2 i)))) := by
      rw [forRanks_ok]
      refine ⟨by simp, ?_⟩
      intro i c hc
      exact ⟨_, by rw [List.getElem?_map, hc]; rfl, (hF c (List.mem_of_getElem? hc)).2⟩
    have e2 : forRanks (fun _ b => doBnd per P x b) 0 x.bnds =
        .ok (x.bnds.map (fun b => (List.range (bisectNum b.1).toNat).map (childBnd b.1 b.2.1))) := by
      rw [forRanks_ok]
      refine ⟨by simp, ?_⟩
      intro i b hb
      exact ⟨_, by rw [List.getElem?_map, hb]; rfl, doBnd_spec h (List.mem_of_getElem? hb)⟩
    rw [bisect, Res.assert_true _ hbad, Res.ok_bind, e1, Res.ok_bind, e2, Res.ok_bind]
    refine congrArg Res.ok ?_
    have k1 : childCells per x.cells (x.cells.map F) =
        (x.cells.map (fun c => (List.range (bisectNum c.2.type).toNat).map (fun i => (c.1, child per (F c) c.2 i)))).flatten := by
      rw [childCells, List.flatMap_def, List.zip_map_right, List.map_map, show x.cells.zip x.cells = x.cells.map (fun c => (c, c)) from by
        rw [List.zip_eq_zipWith, List.zipWith_self], List.map_map]
      rfl
    rw [k1, childBnds, List.flatMap_def, List.map_map]
    rfl

end DNDSR.Bisect
