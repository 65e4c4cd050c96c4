import Verif.Props.LimProc
import Verif.Props.RecIterDemo

/-!
# C99: the hypotheses can be met, and neighbours across periodic boundaries are not turned
-/

namespace DNDSR.LimProc

open DNDSR.Elem DNDSR.IMap DNDSR.MeshAdj
open DNDSR.Faces hiding rename
open DNDSR.Flux (nSides firstSide isSlot_of lt_of_isSlot nSides_eq)
open DNDSR.Sweep (Mates own_index own_of_lt nOwn_le system_exists)
open Matrix

variable {N V : Nat}
variable {cl nl : List Nat} {gc : GOM} {ranks : List RankIn} {outs : List RankOut} {P : Prob N V}

/-- Coefficients and vectors can be given to the ranks in any way that depends on the global numbers only. -/
theorem onmesh_exists (hD : Distributed P.per cl nl P.G gc ranks) (hN : Numbered P.per cl nl P.G ranks outs P.F) (hE : Orient P.per cl P.G ranks outs P.F P.E)
    (hM : Mates P.per P.G P.F P.mate) (X Y : Nat → Matrix (Fin N) (Fin V) ℝ) :
    ∃ rs, OnMesh cl nl gc ranks outs rs P ∧ Has cl ranks rs (·.x) X ∧ Has cl ranks rs (·.y) Y := by
  let mk : RankIn → RankOut → Rk N V := fun x o =>
    ⟨⟨x.nOwn, o.faces, o.c2f, x.cellMap.ghostIndex, (List.range o.faces.length).map fun v : Nat => P.ν (numberOf o.faceMap (v : Int)),
        (List.range o.faces.length).map fun v : Nat => P.R (numberOf o.faceMap (v : Int))⟩,
      (List.range x.cells.length).map fun l : Nat => P.U (numberOf x.cellMap (l : Int)).toNat,
      (List.range x.cells.length).map fun l : Nat => X (numberOf x.cellMap (l : Int)).toNat,
      (List.range x.cells.length).map fun l : Nat => Y (numberOf x.cellMap (l : Int)).toNat, [],
      (List.range x.nOwn).map fun l : Nat => P.si (numberOf x.cellMap (l : Int)).toNat⟩
  have hget : ∀ {r : Nat} {d : Rk N V}, (List.zipWith mk ranks outs)[r]? = some d →
      ∃ x o, ranks[r]? = some x ∧ outs[r]? = some o ∧ d = mk x o := by
    intro r d h
    rw [List.getElem?_zipWith] at h
    cases hx : ranks[r]? with
    | none => simp [hx] at h
    | some x =>
        cases ho : outs[r]? with
        | none => simp [hx, ho] at h
        | some o =>
            simp only [hx, ho, Option.some.injEq] at h
            exact ⟨x, o, rfl, rfl, h.symm⟩
  have hvec : ∀ {α : Type} (Z : Nat → α) (vec : Rk N V → List α),
      (∀ x o, vec (mk x o) = (List.range x.cells.length).map fun l : Nat => Z (numberOf x.cellMap (l : Int)).toNat) →
      ∀ (r : Nat) (x : RankIn) (s : Rk N V) (i l : Nat), ranks[r]? = some x → (List.zipWith mk ranks outs)[r]? = some s →
        LocalName cl r x.cellMap.ghostIndex i l → (vec s)[l]? = some (Z i) := by
    intro α Z vec hv r x s i l hx hs hi
    obtain ⟨x', o, hx', ho, rfl⟩ := hget hs
    rw [hx] at hx'; cases hx'
    have hH := hD.holds r x hx
    simp only [hv, List.getElem?_map, List.getElem?_range (is_lt hH hi), Option.map_some, number_is hH hi, Int.toNat_natCast]
  refine ⟨List.zipWith mk ranks outs, ⟨hD, hN, hE, hM, by rw [List.length_zipWith, hN.size, Nat.min_self], ?_, ?_, ?_, ?_, ?_, ?_⟩,
    hvec X (·.x) fun _ _ => rfl, hvec Y (·.y) fun _ _ => rfl⟩
  · intro r x d hx hd
    obtain ⟨x', o, hx', ho, rfl⟩ := hget hd
    rw [hx] at hx'; cases hx'
    simp [mk]
  · intro r o d ho hd
    obtain ⟨x', o', hx', ho', rfl⟩ := hget hd
    rw [ho] at ho'; cases ho'
    simp [mk]
  · intro r o d q v ho hd hn hq
    obtain ⟨x, o', hx, ho', rfl⟩ := hget hd
    rw [ho] at ho'; cases ho'
    have hlt := face_lt hN ho (by omega) hn hq.1
    rw [Int.toNat_natCast] at hlt
    simp only [mk, List.getElem?_map, List.getElem?_range hlt, Option.map_some, numberOf_eq (face_faithful hN ho) hq.1 (by omega) hn, and_self]
  · intro r i d hoi hd
    obtain ⟨x, o, hx, ho, rfl⟩ := hget hd
    have hH := hD.holds r x hx
    obtain ⟨hi, hl⟩ := own_index hH hoi
    simp only [mk, List.getElem?_map, List.getElem?_range hl, Option.map_some, number_is hH hi, Int.toNat_natCast, and_self]
  · exact hvec P.U (·.u) fun _ _ => rfl
  · intro r x d hx hd
    obtain ⟨x', o, hx', ho, rfl⟩ := hget hd
    rw [hx] at hx'; cases hx'
    simp [mk]

/-! ## Two quadrilaterals -/

/-- linear base functions of which both cells have the same, and the variables as they are -/
def demoProb (V : Nat) (per : Bool) (F : Nat → Nat → Int) (E : Int → Nat × Nat) (mate : Nat → Nat → Option Nat) : Prob 2 V :=
  ⟨per, TwoQuads.mesh, F, E, mate, fun _ => 1, fun _ => (1, 1), fun _ => ![1, 0, 0], fun _ => 1⟩

def demoEig (V : Nat) : Eig V := ⟨fun _ _ _ _ B => B, fun _ _ _ _ B => B⟩

noncomputable def demoCtl : Ctl := ⟨2, 1, 1, false, 10, 1 / 2⟩

theorem demo_good : Good demoCtl 2 := ⟨Or.inl rfl, by decide, rfl, ⟨by decide, by decide⟩, fun h => by cases h⟩

theorem demo_byRow (V : Nat) : ByRow (demoEig V) (fun _ _ _ u => u) (fun _ _ _ u => u) := fun _ _ _ _ _ => ⟨rfl, rfl⟩

/-- cubic base functions in three dimensions meet the conditions too -/
example : Good ⟨3, 3, 3, false, 10, 1 / 100⟩ 19 := ⟨Or.inr rfl, by decide, rfl, ⟨by decide, by decide⟩, fun h => by cases h⟩

/-- Two quadrilaterals on two ranks: both procedures run and keep a gradient that is the same in both cells. -/
example (per put : Bool) (srt : Sorter) (hs : Sorts srt) (g : Matrix (Fin 2) (Fin 3) ℝ) :
    ∃ gc ranks outs F E mate rs, interpolate per srt gc ranks = .ok outs ∧ OnMesh [1, 1] [4, 2] gc ranks outs rs (demoProb 3 per F E mate) ∧
      (∀ i, (demoProb 3 per F E mate).Limited demoCtl false i) ∧
      (∃ rs' Y, limiterC gc demoCtl (demoEig 3) false put rs = .ok rs' ∧ Has [1, 1] ranks rs' (·.y) Y ∧ ∀ i k v, |Y i k v - g k v| ≤ 1 / 10 ^ 50) ∧
      ∃ rs' Y, limiter3 gc demoCtl (demoEig 3) false put rs = .ok rs' ∧ Has [1, 1] ranks rs' (·.y) Y ∧ ∀ i k v, |Y i k v - g k v| ≤ 1 / 10 ^ 50 := by
  obtain ⟨gc, ranks, hD, _⟩ := TwoQuads.exists_ranks per
  obtain ⟨outs, _, hI, _⟩ := faces_global per srt hs _ _ _ _ _ hD
  obtain ⟨F, E, mate, hN, hE, hM⟩ := system_exists hs hD hI
  obtain ⟨rs, hP, hX, -⟩ := onmesh_exists (P := demoProb 3 per F E mate) hD hN hE hM (fun _ => g) (fun _ => 0)
  have h1 : ∀ i j, (demoProb 3 per F E mate).into i j = 1 ∧ (demoProb 3 per F E mate).outOf i j = 1 := fun i j => by
    unfold Prob.into Prob.outOf demoProb
    constructor <;> simp
  have hsm : ∀ i, (demoProb 3 per F E mate).Smooth (fun _ => g) i := fun i j _ i' _ => by rw [(h1 i j).1, (h1 i j).2, Matrix.one_mul]; exact ⟨rfl, rfl⟩
  have htr : ∀ i, (demoProb 3 per F E mate).Triangular demoCtl i := fun i j _ q k k' h h' => by
    rw [(h1 i j).2]
    exact Matrix.one_apply_ne fun e => by rw [e] at h; omega
  refine ⟨gc, ranks, outs, F, E, mate, rs, hI, hP, fun i => Or.inr (by show (1 / 2 : ℝ) ≤ 1; norm_num), ?_, ?_⟩
  · obtain ⟨Y, hY, hk⟩ := limiterC_polynomial demo_good (Or.inl rfl) rfl (by show (0 : ℝ) < 10; norm_num) (demoEig 3) false
      (demoProb 3 per F E mate) (fun _ _ _ _ _ _ _ => rfl) (fun _ => g)
    obtain ⟨rs', e, _, hy, _⟩ := hY _ _ _ _ _ _ put hP hX
    exact ⟨rs', Y, e, hy, fun i => hk i (hsm i) (htr i)⟩
  · obtain ⟨Y, hY, hk⟩ := limiter3_linear demo_good (Or.inl rfl) rfl (by show (0 : ℝ) < 10; norm_num) (demoEig 3) false
      (demoProb 3 per F E mate) (fun _ _ _ _ _ _ _ => rfl) (fun _ => g) (fun i k v hk => by have := k.2; have : modes demoCtl.dim 1 = 2 := rfl; omega)
    obtain ⟨rs', e, _, hy, _⟩ := hY _ _ _ _ _ _ put hP hX
    exact ⟨rs', Y, e, hy, fun i => hk i (hsm i)⟩

/-- Vectors are not turned across periodic boundaries. The two quadrilaterals meet at a periodic face. The second one has the gradient of the first
one, turned by the quarter by which the boundary is turned, so that the field goes on smoothly. The procedure should keep it, and wipes it out. -/
theorem rotation_ignored (srt : Sorter) (hs : Sorts srt) :
    ∃ (turn : (Fin 2 → ℝ) → Fin 2 → ℝ) (X : Nat → Matrix (Fin 2) (Fin 2) ℝ) (gc : GOM) (ranks : List RankIn) (outs : List RankOut) (F : Nat → Nat → Int)
      (E : Int → Nat × Nat) (mate : Nat → Nat → Option Nat) (rs rs' : List (Rk 2 2)) (Y : Nat → Matrix (Fin 2) (Fin 2) ℝ),
      (∀ w, turn w = ![w 1, -w 0]) ∧ (∀ k, turn (X 1 k) = X 0 k) ∧ interpolate true srt gc ranks = .ok outs ∧
      OnMesh [1, 1] [4, 2] gc ranks outs rs (demoProb 2 true F E mate) ∧ Has [1, 1] ranks rs (·.x) X ∧
      limiterC gc demoCtl (demoEig 2) true true rs = .ok rs' ∧ Has [1, 1] ranks rs' (·.y) Y ∧ X 0 0 0 = 1 ∧ Y 0 0 0 = 0 := by
  obtain ⟨gc, ranks, hD, _⟩ := TwoQuads.exists_ranks true
  obtain ⟨outs, _, hI, _⟩ := faces_global true srt hs _ _ _ _ _ hD
  obtain ⟨F, E, mate, hN, hE, hM⟩ := system_exists hs hD hI
  let X : Nat → Matrix (Fin 2) (Fin 2) ℝ := fun i => if i = 0 then !![1, 0; 0, 0] else !![0, 1; 0, 0]
  obtain ⟨rs, hP, hX, -⟩ := onmesh_exists (P := demoProb 2 true F E mate) hD hN hE hM X X
  obtain ⟨Y, W, hY, hv⟩ := limiterC_values demo_good (Or.inr (Or.inl ⟨rfl, rfl⟩)) rfl (demo_byRow 2) true (demoProb 2 true F E mate) X
  obtain ⟨rs', e, _, hy, _⟩ := hY _ _ _ _ _ _ true hP hX
  refine ⟨fun w => ![w 1, -w 0], X, gc, ranks, outs, F, E, mate, rs, rs', Y, fun _ => rfl, ?_, hI, hP, hX, e, hy, by simp [X], ?_⟩
  · intro k
    funext v
    fin_cases k <;> fin_cases v <;> simp [X]
  · obtain ⟨h1, h2⟩ := hv 0 (Or.inl rfl)
    have hside : nSides TwoQuads.mesh 0 = 4 := by decide
    have hm : (demoProb 2 true F E mate).mate 0 1 = some 1 := by
      rw [show (demoProb 2 true F E mate).mate 0 1 = mate 0 1 from rfl, RecIt.twoQuads_mates hN hM (by omega) (by omega)]; rfl
    rw [h1]
    refine Lim.multi_zero _ _ _ (Or.inr (List.mem_filterMap.2 ⟨1, List.mem_range.2 (by show 1 < nSides TwoQuads.mesh 0; rw [hside]; omega), ?_⟩))
    obtain ⟨seen, s1, -, hW⟩ := h2 1 (by show 1 < nSides TwoQuads.mesh 0; rw [hside]; omega) 1 hm 1 le_rfl le_rfl 0 ⟨by decide, by decide⟩
    rw [hm, Option.map_some, hW]
    have hi : (demoProb 2 true F E mate).into 0 1 = 1 := by unfold Prob.into demoProb; simp
    have h0 : seen 0 0 = 0 := by rw [s1 0 0 (by decide)]; simp [X]
    rw [hi, Matrix.one_mul]
    simp only [h0]
    rw [(Lim.minmod_spec _ _).2.2 (by simp)]

end DNDSR.LimProc
