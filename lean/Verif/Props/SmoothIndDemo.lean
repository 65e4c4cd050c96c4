import Verif.Props.SmoothInd
import Verif.Props.LimProcDemo

/-!
# C101: the hypotheses can be met
-/

namespace DNDSR.SmoothInd

open DNDSR.Rec DNDSR.Jet
open DNDSR.Elem DNDSR.IMap DNDSR.MeshAdj
open DNDSR.Faces hiding rename
open DNDSR.Flux (nSides firstSide isSlot_of lt_of_isSlot nSides_eq)
open DNDSR.Sweep (Mates own_index own_of_lt nOwn_le system_exists)
open Matrix

variable {N V : Nat}
variable {cl nl : List Nat} {gc : GOM} {ranks : List RankIn} {outs : List RankOut} {P : Prob N V}

/-- Data can be given to the ranks in any way that depends on the global numbers only. -/
theorem onmesh_exists (hD : Distributed P.per cl nl P.G gc ranks) (hN : Numbered P.per cl nl P.G ranks outs P.F) (hE : Orient P.per cl P.G ranks outs P.F P.E)
    (hM : Mates P.per P.G P.F P.mate) : ∃ rs, OnMesh cl nl gc ranks outs rs P := by
  let mk : RankIn → RankOut → Rk N V := fun x o =>
    ⟨x.nOwn, o.faces, o.c2f, (List.range x.cells.length).map fun l : Nat => P.C (numberOf x.cellMap (l : Int)).toNat,
      (List.range o.faces.length).map fun v : Nat => P.D (numberOf o.faceMap (v : Int))⟩
  have hget : ∀ {r : Nat} {d : Rk N V}, (List.zipWith mk ranks outs)[r]? = some d →
      ∃ x o, ranks[r]? = some x ∧ outs[r]? = some o ∧ d = mk x o := by
    intro r d h
    rw [List.getElem?_zipWith] at h
    cases hx : ranks[r]? with
    | none => simp [hx] at h
    | some x =>
        cases ho : outs[r]? with
        | none => simp [hx, ho] at h
        | some o =>
            simp only [hx, ho, Option.some.injEq] at h
            exact ⟨x, o, rfl, rfl, h.symm⟩
  refine ⟨List.zipWith mk ranks outs, ⟨hD, hN, hE, hM, by rw [List.length_zipWith, hN.size, Nat.min_self], ?_, ?_, ?_, ?_⟩⟩
  · intro r x d hx hd
    obtain ⟨x', o, hx', ho, rfl⟩ := hget hd
    rw [hx] at hx'; cases hx'
    rfl
  · intro r o d ho hd
    obtain ⟨x', o', hx', ho', rfl⟩ := hget hd
    rw [ho] at ho'; cases ho'
    exact ⟨rfl, rfl⟩
  · intro r o d q v ho hd hn hq
    obtain ⟨x, o', hx, ho', rfl⟩ := hget hd
    rw [ho] at ho'; cases ho'
    have hlt := face_lt hN ho (by omega) hn hq.1
    rw [Int.toNat_natCast] at hlt
    simp only [mk, List.getElem?_map, List.getElem?_range hlt, Option.map_some, numberOf_eq (face_faithful hN ho) hq.1 (by omega) hn]
  · intro r x s i l hx hs hi
    obtain ⟨x', o, hx', ho, rfl⟩ := hget hs
    rw [hx] at hx'; cases hx'
    have hH := hD.holds r x hx
    simp only [mk, List.getElem?_map, List.getElem?_range (is_lt hH hi), Option.map_some, number_is hH hi, Int.toNat_natCast]

/-- linear base functions; the cells have constant states `u`; all faces have area 1 and weigh values and slopes -/
def demoProb (V : Nat) (u : Nat → Fin V → ℝ) (per : Bool) (F : Nat → Nat → Int) (E : Int → Nat × Nat) (mate : Nat → Nat → Option Nat) : Prob 2 V :=
  ⟨per, TwoQuads.mesh, F, E, mate, fun i => ⟨⟨0, ![1, 1, 1], ![1, 1, 1], 1, fun _ => 0, false, false⟩, 0, u i⟩,
    fun _ => ⟨⟨fun k => if k ≤ 1 then 1 else 0, ![1, 1, 1], ![1, 0, 0], 1, true, 1, false, 1⟩, 0, 0, [2]⟩⟩

/-- gas at rest with pressure 1 and the density 1 or 2 -/
noncomputable def contact (i : Nat) : Fin 4 → ℝ := ![i + 1, 0, 0, 5 / 2]

theorem demo_at0 (W : Wrap) (V : Nat) (u : Nat → Fin V → ℝ) (per : Bool) (F : Nat → Nat → Int) (E : Int → Nat × Nat) (mate : Nat → Nat → Option Nat) (i : Nat)
    (D : FaceData) (b : Bool) : at0 frame2 W ((demoProb V u per F E mate).C i) D b = u i := by
  funext v
  simp [at0, polyOf, poly, demoProb]

theorem demo_inPlane {W : Wrap} (hW : W.isPeriodic = false) (V : Nat) (u : Nat → Fin V → ℝ) (per : Bool) (F : Nat → Nat → Int) (E : Int → Nat × Nat)
    (mate : Nat → Nat → Option Nat) : InPlane W frame2 (demoProb V u per F E mate) := by
  intro i _ f hf
  obtain ⟨j, _, rfl⟩ := List.mem_map.1 hf
  have h : ∀ b, onSide W 0 b 0 = 0 := fun b => by unfold onSide toOther; rw [hW]; cases b <;> rfl
  refine ⟨?_, fun C' hC' => ?_⟩
  · show onSide W 0 _ 0 2 = 0
    rw [h]; rfl
  · obtain ⟨i', -, rfl⟩ := Option.map_eq_some_iff.1 hC'
    show onSide W 0 _ 0 2 = 0
    rw [h]; rfl

/-- Two quadrilaterals on two ranks with a contact discontinuity between them: both indicators run, the first one sees it in both cells and the second one
in none. -/
example (per : Bool) (srt : Sorter) (hs : Sorts srt) {W : Wrap} (hW : W.isPeriodic = false) :
    ∃ gc ranks outs F E mate rs, interpolate per srt gc ranks = .ok outs ∧ OnMesh [1, 1] [4, 2] gc ranks outs rs (demoProb 4 contact per F E mate) ∧
      (∃ σ, Gives (indicator (cell0 space2 W 1 [0])) (demoProb 4 contact per F E mate) σ ∧ 0 < σ 0 ∧ 0 < σ 1) ∧
      ∃ σ, Gives (indicator (cell1 space2 W 1 (fun _ => 1) (pressurePost 2 0 (7 / 5)))) (demoProb 4 contact per F E mate) σ ∧ σ 0 = 0 ∧ σ 1 = 0 := by
  obtain ⟨gc, ranks, hD, _⟩ := TwoQuads.exists_ranks per
  obtain ⟨outs, _, hI, _⟩ := faces_global per srt hs _ _ _ _ _ hD
  obtain ⟨F, E, mate, hN, hE, hM⟩ := system_exists hs hD hI
  obtain ⟨rs, hP⟩ := onmesh_exists (P := demoProb 4 contact per F E mate) hD hN hE hM
  have hside : ∀ i < 2, nSides TwoQuads.mesh i = 4 := by decide
  have hG : (demoProb 4 contact per F E mate).G.length = 2 := rfl
  have hpos : ∀ i, ∀ f ∈ (demoProb 4 contact per F E mate).faces i, Positive f := by
    intro i f hf
    obtain ⟨j, _, rfl⟩ := List.mem_map.1 hf
    exact ⟨zero_le_one, fun w hw => by rw [List.mem_singleton.1 hw]; norm_num⟩
  have hj : ∀ i i' j, i < 2 → j < 4 → mate i j = some i' → contact i 0 ≠ contact i' 0 →
      JumpsAtFace frame2 W (fun u => u 0) ((demoProb 4 contact per F E mate).C i) ((demoProb 4 contact per F E mate).faces i) := by
    intro i i' j hi hj hm hne
    refine ⟨_, List.mem_map.2 ⟨j, List.mem_range.2 (by show j < nSides TwoQuads.mesh i; rw [hside i hi]; exact hj), rfl⟩,
      (demoProb 4 contact per F E mate).C i', by show (mate i j).map _ = _; rw [hm]; rfl, ?_, ?_, ?_⟩
    · show (0 : ℝ) < 1 * [2].sum
      norm_num
    · show (if 0 ≤ 1 then (1 : ℝ) else 0) ≠ 0
      norm_num
    · simp only [demo_at0]
      exact hne
  refine ⟨gc, ranks, outs, F, E, mate, rs, hI, hP, ?_, ?_⟩
  · obtain ⟨σ, h1, h2⟩ := indicator_sees (S := space2) (W := W) (m := 1) Dim.plane (by omega) rfl (see := [(0 : Fin 4)]) (by simp)
      (demoProb 4 contact per F E mate) (demo_inPlane hW _ _ _ _ _ _)
    refine ⟨σ, h1, (h2 0 (by rw [hG]; omega)).2.2 one_pos (hpos 0) ⟨0, by simp, ?_⟩, (h2 1 (by rw [hG]; omega)).2.2 one_pos (hpos 1) ⟨0, by simp, ?_⟩⟩
    · exact hj 0 1 1 (by omega) (by omega) (by rw [RecIt.twoQuads_mates hN hM (by omega) (by omega)]; rfl) (by norm_num [contact])
    · exact hj 1 0 3 (by omega) (by omega) (by rw [RecIt.twoQuads_mates hN hM (by omega) (by omega)]; rfl) (by norm_num [contact])
  · obtain ⟨σ, h1, h2⟩ := indicator1_pressure (S := space2) (W := W) (m := 1) (d' := 2) (e := 0) (gamma := 7 / 5) Dim.plane (by omega) rfl (fun _ => 1)
      (demoProb 4 contact per F E mate) (demo_inPlane hW _ _ _ _ _ _)
    have hp : ∀ i : Nat, pressure 2 0 (7 / 5) (contact i) = 1 := by
      intro i
      unfold pressure
      have e0 : contact i ⟨0, by omega⟩ = i + 1 := rfl
      have e3 : contact i ⟨2 + 1, by omega⟩ = 5 / 2 := rfl
      rw [if_neg, e3]
      · simp [Fin.sum_univ_two, contact]
        norm_num
      · rw [e0, not_lt]
        have : (0 : ℝ) ≤ i := Nat.cast_nonneg i
        have : (1 : ℝ) / 10 ^ 200 ≤ 1 := by norm_num
        linarith
    have hz : ∀ i, SameAtFaces frame2 W (pressure 2 0 (7 / 5)) ((demoProb 4 contact per F E mate).C i) ((demoProb 4 contact per F E mate).faces i) := by
      intro i f hf C' hC'
      obtain ⟨j, _, rfl⟩ := List.mem_map.1 hf
      obtain ⟨i', -, rfl⟩ := Option.map_eq_some_iff.1 hC'
      simp only [demo_at0, hp]
    exact ⟨σ, h1, (h2 0 (by rw [hG]; omega)).2.1 (hz 0), (h2 1 (by rw [hG]; omega)).2.1 (hz 1)⟩

/-- A shock tube on the same mesh, with the pressures 1 and 2: the second indicator sees it. -/
example (per : Bool) (srt : Sorter) (hs : Sorts srt) {W : Wrap} (hW : W.isPeriodic = false) (u : Nat → Fin 4 → ℝ) (h0 : u 0 = ![1, 0, 0, 5 / 2])
    (h1 : u 1 = ![1, 0, 0, 5]) :
    ∃ gc ranks outs F E mate rs σ, interpolate per srt gc ranks = .ok outs ∧ OnMesh [1, 1] [4, 2] gc ranks outs rs (demoProb 4 u per F E mate) ∧
      Gives (indicator (cell1 space2 W 1 (fun _ => 1) (pressurePost 2 0 (7 / 5)))) (demoProb 4 u per F E mate) σ ∧ 0 < σ 0 := by
  obtain ⟨gc, ranks, hD, _⟩ := TwoQuads.exists_ranks per
  obtain ⟨outs, _, hI, _⟩ := faces_global per srt hs _ _ _ _ _ hD
  obtain ⟨F, E, mate, hN, hE, hM⟩ := system_exists hs hD hI
  obtain ⟨rs, hP⟩ := onmesh_exists (P := demoProb 4 u per F E mate) hD hN hE hM
  obtain ⟨σ, g1, g2⟩ := indicator1_pressure (S := space2) (W := W) (m := 1) (d' := 2) (e := 0) (gamma := 7 / 5) Dim.plane (by omega) rfl (fun _ => 1)
    (demoProb 4 u per F E mate) (demo_inPlane hW _ _ _ _ _ _)
  have hside : nSides TwoQuads.mesh 0 = 4 := by decide
  refine ⟨gc, ranks, outs, F, E, mate, rs, σ, hI, hP, g1, (g2 0 (by show 0 < 2; omega)).2.2 one_pos ?_ ⟨0, one_pos⟩ ?_⟩
  · intro f hf
    obtain ⟨j, _, rfl⟩ := List.mem_map.1 hf
    exact ⟨zero_le_one, fun w hw => by rw [List.mem_singleton.1 hw]; norm_num⟩
  · refine ⟨_, List.mem_map.2 ⟨1, List.mem_range.2 (by show 1 < nSides TwoQuads.mesh 0; rw [hside]; omega), rfl⟩, (demoProb 4 u per F E mate).C 1,
      by show (mate 0 1).map _ = _; rw [RecIt.twoQuads_mates hN hM (by omega) (by omega)]; rfl, ?_, ?_, ?_⟩
    · show (0 : ℝ) < 1 * [2].sum
      norm_num
    · show (if 0 ≤ 1 then (1 : ℝ) else 0) ≠ 0
      norm_num
    · intro hh
      have hh := (congrArg (pressure 2 0 (7 / 5)) (demo_at0 W 4 u per F E mate 0 _ _)).symm.trans (hh.trans (congrArg (pressure 2 0 (7 / 5)) (demo_at0 W 4 u per F E mate 1 _ _)))
      rw [h0, h1] at hh
      revert hh
      have e : ∀ a : ℝ, pressure 2 0 (7 / 5) ![1, 0, 0, a] = 2 / 5 * a := fun a => by
        unfold pressure
        rw [if_neg]
        · have e3 : (![1, 0, 0, a] : Fin 4 → ℝ) ⟨2 + 1, by omega⟩ = a := rfl
          rw [e3]
          simp [Fin.sum_univ_two]
          norm_num
        · show ¬ (1 : ℝ) < 1 / 10 ^ 200
          norm_num
      show pressure 2 0 (7 / 5) ![1, 0, 0, 5 / 2] ≠ pressure 2 0 (7 / 5) ![1, 0, 0, 5]
      rw [e, e]
      norm_num

end DNDSR.SmoothInd
