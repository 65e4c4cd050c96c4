import Verif.Props.RecIterDiff
import Verif.Props.RecIterMin
import Verif.Props.SweepsDirect

/-!
# C81, C82: the hypotheses can be met, and where the code falls short
-/

namespace DNDSR.RecIt

open DNDSR.Elem DNDSR.IMap DNDSR.MeshAdj
open DNDSR.Faces hiding rename
open DNDSR.Flux (nSides firstSide isSlot_of lt_of_isSlot nSides_eq)
open DNDSR.Sweep (Mates own_index own_of_lt nOwn_le system_exists)
open Matrix

variable {N V : Nat} {K : Type} [Field K]
variable {cl nl : List Nat} {gc : GOM} {ranks : List RankIn} {outs : List RankOut} {rs : List (Rk N V K)} {P : Prob N V K}

/-- Coefficients and vectors can be given to the ranks in any way that depends on the global numbers only. -/
theorem onmesh_exists (hD : Distributed P.per cl nl P.G gc ranks) (hN : Numbered P.per cl nl P.G ranks outs P.F) (hE : Orient P.per cl P.G ranks outs P.F P.E)
    (hM : Mates P.per P.G P.F P.mate) (hT : P.per = true → P.T.given = true) (X Y Δ : Nat → Matrix (Fin N) (Fin V) K) :
    ∃ rs, OnMesh cl nl gc ranks outs rs P ∧ Has cl ranks rs (·.x) X ∧ Has cl ranks rs (·.y) Y ∧ Has cl ranks rs (·.d) Δ := by
  let mk : RankIn → RankOut → Rk N V K := fun x o =>
    ⟨⟨x.nOwn, o.faces, o.c2f, x.cellMap.ghostIndex, P.per, (List.range o.faces.length).map fun v : Nat => P.zone (numberOf o.faceMap (v : Int)),
        (List.range x.nOwn).map fun l : Nat => P.AInv (numberOf x.cellMap (l : Int)).toNat ::
          (List.range (nSides P.G (numberOf x.cellMap (l : Int)).toNat)).map (P.B (numberOf x.cellMap (l : Int)).toNat),
        (List.range x.nOwn).map fun l : Nat => (List.range (nSides P.G (numberOf x.cellMap (l : Int)).toNat)).map (P.b (numberOf x.cellMap (l : Int)).toNat),
        (List.range x.nOwn).map fun l : Nat => P.relax (numberOf x.cellMap (l : Int)).toNat,
        (List.range o.faces.length).map fun v : Nat => P.bc (numberOf o.faceMap (v : Int)),
        (List.range o.faces.length).map fun v : Nat => P.bcd (numberOf o.faceMap (v : Int))⟩,
      (List.range x.cells.length).map fun l : Nat => P.U (numberOf x.cellMap (l : Int)).toNat,
      (List.range x.cells.length).map fun l : Nat => X (numberOf x.cellMap (l : Int)).toNat,
      (List.range x.cells.length).map fun l : Nat => Y (numberOf x.cellMap (l : Int)).toNat,
      (List.range x.cells.length).map fun l : Nat => Δ (numberOf x.cellMap (l : Int)).toNat⟩
  have hget : ∀ {r : Nat} {d : Rk N V K}, (List.zipWith mk ranks outs)[r]? = some d →
      ∃ x o, ranks[r]? = some x ∧ outs[r]? = some o ∧ d = mk x o := by
    intro r d h
    rw [List.getElem?_zipWith] at h
    cases hx : ranks[r]? with
    | none => simp [hx] at h
    | some x =>
        cases ho : outs[r]? with
        | none => simp [hx, ho] at h
        | some o =>
            simp only [hx, ho, Option.some.injEq] at h
            exact ⟨x, o, rfl, rfl, h.symm⟩
  have hvec : ∀ {α : Type} (Z : Nat → α) (vec : Rk N V K → List α),
      (∀ x o, vec (mk x o) = (List.range x.cells.length).map fun l : Nat => Z (numberOf x.cellMap (l : Int)).toNat) →
      ∀ (r : Nat) (x : RankIn) (s : Rk N V K) (i l : Nat), ranks[r]? = some x → (List.zipWith mk ranks outs)[r]? = some s →
        LocalName cl r x.cellMap.ghostIndex i l → (vec s)[l]? = some (Z i) := by
    intro α Z vec hv r x s i l hx hs hi
    obtain ⟨x', o, hx', ho, rfl⟩ := hget hs
    rw [hx] at hx'; cases hx'
    have hH := hD.holds r x hx
    simp only [hv, List.getElem?_map, List.getElem?_range (is_lt hH hi), Option.map_some, number_is hH hi, Int.toNat_natCast]
  refine ⟨List.zipWith mk ranks outs, ⟨hD, hN, hE, hM, hT, by rw [List.length_zipWith, hN.size, Nat.min_self], ?_, ?_, ?_, ?_, ?_, ?_⟩,
    hvec X (·.x) fun _ _ => rfl, hvec Y (·.y) fun _ _ => rfl, hvec Δ (·.d) fun _ _ => rfl⟩
  · intro r x d hx hd
    obtain ⟨x', o, hx', ho, rfl⟩ := hget hd
    rw [hx] at hx'; cases hx'
    simp [mk]
  · intro r o d ho hd
    obtain ⟨x', o', hx', ho', rfl⟩ := hget hd
    rw [ho] at ho'; cases ho'
    simp [mk]
  · intro r o d q v ho hd hn hq
    obtain ⟨x, o', hx, ho', rfl⟩ := hget hd
    rw [ho] at ho'; cases ho'
    have hlt := face_lt hN ho (by omega) hn hq.1
    rw [Int.toNat_natCast] at hlt
    simp only [mk, List.getElem?_map, List.getElem?_range hlt, Option.map_some, numberOf_eq (face_faithful hN ho) hq.1 (by omega) hn, and_self]
  · intro r i d hoi hd
    obtain ⟨x, o, hx, ho, rfl⟩ := hget hd
    have hH := hD.holds r x hx
    obtain ⟨hi, hl⟩ := own_index hH hoi
    simp only [mk, List.getElem?_map, List.getElem?_range hl, Option.map_some, number_is hH hi, Int.toNat_natCast, and_self]
  · exact hvec P.U (·.u) fun _ _ => rfl
  · intro r x d hx hd
    obtain ⟨x', o, hx', ho, rfl⟩ := hget hd
    rw [hx] at hx'; cases hx'
    simp [mk]

/-! ## Two quadrilaterals -/

/-- the two cells share face 1 of the first, which is face 3 of the second -/
theorem twoQuads_mates {per : Bool} {F : Nat → Nat → Int} {mate : Nat → Nat → Option Nat} (hN : Numbered per cl nl TwoQuads.mesh ranks outs F)
    (hM : Mates per TwoQuads.mesh F mate) {i j : Nat} (hi : i < 2) (hj : j < 4) :
    mate i j = if (i, j) = (0, 1) then some 1 else if (i, j) = (1, 3) then some 0 else none := by
  have hsides : ∀ i < 2, nSides TwoQuads.mesh i = 4 := by decide
  obtain ⟨a, ha⟩ := isSlot_of (per := per) (by rw [hsides i hi]; exact hj : j < nSides TwoQuads.mesh i)
  have key : ∀ x ∈ TwoQuads.slots per, ∀ y ∈ TwoQuads.slots per, TwoQuads.Alike y.2.2 x.2.2 → (y.1, y.2.1) ≠ (x.1, x.2.1) →
      (if (x.1, x.2.1) = (0, 1) then some 1 else if (x.1, x.2.1) = (1, 3) then some 0 else none) = some y.1 := by
    cases per <;> decide +kernel
  cases hm : mate i j with
  | some i' =>
      obtain ⟨k, b, hb, e, hne⟩ := (hM i j a ha i').1 hm
      have s1 := (hN.iff _ _ _ _ _ _ hb ha).1 e
      exact (key _ (TwoQuads.mem_slots ha) _ (TwoQuads.mem_slots hb) ⟨s1.1, s1.2.1⟩ hne).symm
  | none =>
      have hsame : ∀ {b c : Slot}, IsSlot per TwoQuads.mesh 0 1 b → IsSlot per TwoQuads.mesh 1 3 c → SameFace per b c := by
        intro b c hb hc
        obtain ⟨cb, h1, _, rfl⟩ := hb
        obtain ⟨cc, h2, _, rfl⟩ := hc
        cases h1
        cases h2
        cases per with
        | false => exact ⟨by decide +kernel, by decide +kernel, fun h => by cases h⟩
        | true =>
            refine ⟨by decide +kernel, by decide +kernel, fun _ => ⟨1, fun n x y hx hy => ?_⟩⟩
            have key : ∀ p ∈ List.zip (slot true ⟨.quad4, [0, 1, 2, 3], [0#8, 1#8, 1#8, 0#8]⟩ 1).nodes (slot true ⟨.quad4, [0, 1, 2, 3], [0#8, 1#8, 1#8, 0#8]⟩ 1).pbi,
                ∀ q ∈ List.zip (slot true ⟨.quad4, [1, 4, 5, 2], [0#8, 0#8, 0#8, 0#8]⟩ 3).nodes (slot true ⟨.quad4, [1, 4, 5, 2], [0#8, 0#8, 0#8, 0#8]⟩ 3).pbi,
                p.1 = q.1 → q.2 = p.2 ^^^ 1 := by decide +kernel
            exact key _ hx _ hy rfl
      by_cases h0 : (i, j) = (0, 1)
      · cases h0
        obtain ⟨c, hc⟩ := isSlot_of (per := per) (by decide : 3 < nSides TwoQuads.mesh 1)
        have := (hM 0 1 a ha 1).2 ⟨3, c, hc, ((hN.iff _ _ _ _ _ _ ha hc).2 (hsame ha hc)).symm, by decide⟩
        rw [hm] at this; cases this
      · by_cases h1 : (i, j) = (1, 3)
        · cases h1
          obtain ⟨c, hc⟩ := isSlot_of (per := per) (by decide : 1 < nSides TwoQuads.mesh 0)
          have := (hM 1 3 a ha 0).2 ⟨1, c, hc, (hN.iff _ _ _ _ _ _ hc ha).2 (hsame hc ha), by decide⟩
          rw [hm] at this; cases this
        · rw [if_neg h0, if_neg h1]

/-- one coefficient and one variable; a neighbour counts a quarter, boundary values are one -/
def demoProb (per : Bool) (F : Nat → Nat → Int) (E : Int → Nat × Nat) (mate : Nat → Nat → Option Nat) : Prob 1 1 ℚ :=
  ⟨per, TwoQuads.mesh, F, E, mate, ⟨true, fun _ w => w, fun _ w => w⟩, fun _ => 5, fun _ => 1, fun _ _ => (1 / 4 : ℚ) • 1, fun _ _ => 1, fun _ => 1,
    fun _ => -1, fun _ _ _ => !![1], fun _ _ _ _ => 0⟩

theorem demo_carry (per : Bool) (F : Nat → Nat → Int) (E : Int → Nat × Nat) (mate : Nat → Nat → Option Nat) (i j : Nat) (w : Fin 1 → ℚ) :
    (demoProb per F E mate).carry i j w = w := by
  unfold Prob.carry demoProb
  dsimp only
  split_ifs <;> rfl

theorem demo_residual {per : Bool} {F : Nat → Nat → Int} {E : Int → Nat × Nat} {mate : Nat → Nat → Option Nat} (hN : Numbered per cl nl TwoQuads.mesh ranks outs F)
    (hM : Mates per TwoQuads.mesh F mate) (Y : Nat → Matrix (Fin 1) (Fin 1) ℚ) :
    (demoProb per F E mate).residual Y 0 0 0 = Y 0 0 0 - (1 / 4 * Y 1 0 0 + 3) ∧ (demoProb per F E mate).residual Y 1 0 0 = Y 1 0 0 - (1 / 4 * Y 0 0 0 + 3) := by
  have hsides : nSides TwoQuads.mesh 0 = 4 ∧ nSides TwoQuads.mesh 1 = 4 := by decide
  have hp : ∀ i < 2, ∀ j < 4, (demoProb per F E mate).part i j (Y i) Y 0 0 =
      match (if (i, j) = (0, 1) then some 1 else if (i, j) = (1, 3) then some 0 else none : Option Nat) with
      | some i' => 1 / 4 * Y i' 0 0
      | none => 1 := by
    intro i hi j hj
    unfold Prob.part
    rw [show (demoProb per F E mate).mate i j = mate i j from rfl, twoQuads_mates hN hM hi hj]
    generalize (if (i, j) = (0, 1) then some 1 else if (i, j) = (1, 3) then some 0 else none : Option Nat) = o
    cases o with
    | none =>
        show ((1 : Matrix (Fin 1) (Fin 1) ℚ) * !![1] : Matrix (Fin 1) (Fin 1) ℚ) 0 0 = 1
        rw [Matrix.one_mul]
        rfl
    | some i' =>
        simp only [demo_carry, Matrix.add_apply, vecMulVec_apply]
        rw [show (demoProb per F E mate).carryM i j (Y i') = Y i' from funext fun k => demo_carry _ _ _ _ _ _ _]
        simp [demoProb]
  constructor
  · rw [Prob.residual, show (demoProb per F E mate).G = TwoQuads.mesh from rfl, hsides.1, Matrix.sub_apply, Matrix.sum_apply]
    simp only [Finset.sum_range_succ, Finset.sum_range_zero, hp 0 (by omega) 0 (by omega), hp 0 (by omega) 1 (by omega), hp 0 (by omega) 2 (by omega), hp 0 (by omega) 3 (by omega)]
    simp
    ring
  · rw [Prob.residual, show (demoProb per F E mate).G = TwoQuads.mesh from rfl, hsides.2, Matrix.sub_apply, Matrix.sum_apply]
    simp only [Finset.sum_range_succ, Finset.sum_range_zero, hp 1 (by omega) 0 (by omega), hp 1 (by omega) 1 (by omega), hp 1 (by omega) 2 (by omega), hp 1 (by omega) 3 (by omega)]
    simp
    ring

/-- Two quadrilaterals on two ranks, in both modes: from any start, `k` steps bring the coefficients to within a factor `4 ^ k` of the solution, which
is 4 in both cells. -/
example (per sor : Bool) (srt : Sorter) (hs : Sorts srt) (X : Nat → Matrix (Fin 1) (Fin 1) ℚ) (c : ℚ) (hc : 0 ≤ c) (herr : ∀ i < 2, |X i 0 0 - 4| ≤ c) (k : Nat) :
    ∃ gc ranks outs F E mate rs, interpolate per srt gc ranks = .ok outs ∧ OnMesh [1, 1] [4, 2] gc ranks outs rs (demoProb per F E mate) ∧ Has [1, 1] ranks rs (·.x) X ∧
      (demoProb per F E mate).Solves (fun _ => !![4]) ∧
      (∃ rs' Y, step gc (demoProb per F E mate).T sor rs = .ok rs' ∧ Has [1, 1] ranks rs' (·.x) Y ∧ ((∀ i < 2, Y i = X i) ↔ (demoProb per F E mate).Solves X)) ∧
      ∃ rs' Y, steps gc (demoProb per F E mate).T sor k rs = .ok rs' ∧ Has [1, 1] ranks rs' (·.x) Y ∧ ∀ i < 2, |Y i 0 0 - 4| ≤ (1 / 4) ^ k * c := by
  obtain ⟨gc, ranks, hD, _⟩ := TwoQuads.exists_ranks per
  obtain ⟨outs, _, hI, _⟩ := faces_global per srt hs _ _ _ _ _ hD
  obtain ⟨F, E, mate, hN, hE, hM⟩ := system_exists hs hD hI
  obtain ⟨rs, hP, hX, -⟩ := onmesh_exists (P := demoProb per F E mate) hD hN hE hM (fun _ => rfl) X X X
  have hR := fun Y => demo_residual (E := E) hN hM Y
  have hb : (demoProb per F E mate).Blind := fun _ _ _ _ _ _ _ => rfl
  refine ⟨gc, ranks, outs, F, E, mate, rs, hI, hP, hX, ?_, ?_, ?_⟩
  · intro i hi
    have hi : i < 2 := hi
    obtain ⟨h0, h1⟩ := hR fun _ => !![4]
    ext a b
    rw [Subsingleton.elim a 0, Subsingleton.elim b 0]
    match i, hi with
    | 0, _ => rw [h0]; norm_num
    | 1, _ => rw [h1]; norm_num
  · obtain ⟨rs', Y, h1, _, h2, h3⟩ := step_fixed_iff hP hX (sor := sor) (fun _ => hb) (fun _ _ => one_ne_zero)
    exact ⟨rs', Y, h1, h2, h3⟩
  · obtain ⟨rs', Y, h1, _, h2, h3⟩ := steps_contract hP hX (sor := sor) (fun _ => hb) (fun M => |M 0 0|) (q := 1 / 4) (by norm_num) (by norm_num)
      (S := fun _ => !![4]) (by
        intro i hi Y c hc _ hy
        have hi : i < 2 := hi
        obtain ⟨h0, h1⟩ := hR Y
        have hsides : nSides TwoQuads.mesh 0 = 4 ∧ nSides TwoQuads.mesh 1 = 4 := by decide
        have hr : (demoProb per F E mate).relax i = 1 := rfl
        rw [hr, one_smul]
        simp only [Matrix.sub_apply, show (!![4] : Matrix (Fin 1) (Fin 1) ℚ) 0 0 = 4 from rfl] at hy ⊢
        match i, hi with
        | 0, _ =>
            have := hy 1 (by rw [show (demoProb per F E mate).G = TwoQuads.mesh from rfl, hsides.1]; omega) 1 (by
              rw [show (demoProb per F E mate).mate 0 1 = mate 0 1 from rfl, twoQuads_mates hN hM (by omega) (by omega)]; rfl)
            rw [h0, show Y 0 0 0 - (Y 0 0 0 - (1 / 4 * Y 1 0 0 + 3)) - 4 = 1 / 4 * (Y 1 0 0 - 4) by ring, abs_mul, abs_of_pos (by norm_num : (0 : ℚ) < 1 / 4)]
            linarith
        | 1, _ =>
            have := hy 3 (by rw [show (demoProb per F E mate).G = TwoQuads.mesh from rfl, hsides.2]; omega) 0 (by
              rw [show (demoProb per F E mate).mate 1 3 = mate 1 3 from rfl, twoQuads_mates hN hM (by omega) (by omega)]; rfl)
            rw [h1, show Y 1 0 0 - (Y 1 0 0 - (1 / 4 * Y 0 0 0 + 3)) - 4 = 1 / 4 * (Y 0 0 0 - 4) by ring, abs_mul, abs_of_pos (by norm_num : (0 : ℚ) < 1 / 4)]
            linarith) hc herr k
    exact ⟨rs', Y, h1, h2, h3⟩

/-- On the same mesh: the residual, the product and the sweeps of the Krylov solvers, for any vectors. -/
example (per reverse : Bool) (srt : Sorter) (hs : Sorts srt) (X Y Δ : Nat → Matrix (Fin 1) (Fin 1) ℚ) :
    ∃ gc ranks outs F E mate rs, interpolate per srt gc ranks = .ok outs ∧ OnMesh [1, 1] [4, 2] gc ranks outs rs (demoProb per F E mate) ∧
      (∃ rs', iterAll (demoProb per F E mate).T false true true false rs = .ok rs' ∧ HasOwn [1, 1] rs' (·.y) ((demoProb per F E mate).residual X)) ∧
      (∃ rs', diffAll (demoProb per F E mate).T rs = .ok rs' ∧ HasOwn [1, 1] rs' (·.y) ((demoProb per F E mate).linear X Δ)) ∧
      ((∀ i < 2, (demoProb per F E mate).linear X Δ i = (demoProb per F E mate).residual X i) ↔ (demoProb per F E mate).Solves fun i => X i - Δ i) ∧
      ∃ rs' Z, sorAll (demoProb per F E mate).T reverse rs = .ok rs' ∧ HasOwn [1, 1] rs' (·.y) Z ∧
        ((∀ i < 2, Z i = Y i) ↔ ∀ i < 2, (demoProb per F E mate).linear X Y i = Δ i) := by
  obtain ⟨gc, ranks, hD, _⟩ := TwoQuads.exists_ranks per
  obtain ⟨outs, _, hI, _⟩ := faces_global per srt hs _ _ _ _ _ hD
  obtain ⟨F, E, mate, hN, hE, hM⟩ := system_exists hs hD hI
  obtain ⟨rs, hP, hX, hY, hΔ⟩ := onmesh_exists (P := demoProb per F E mate) hD hN hE hM (fun _ => rfl) X Y Δ
  obtain ⟨r1, a1, _, _, a2⟩ := record_residual hP hX false
  obtain ⟨r2, b1, _, _, _, b2⟩ := diff_linear hP hX hΔ
  obtain ⟨r3, Z, c1, _, c2, c3⟩ := sor_fixed_iff hP hX hΔ hY (fun _ _ _ _ _ _ _ _ => rfl) reverse
  refine ⟨gc, ranks, outs, F, E, mate, rs, hI, hP, ⟨r1, a1, a2⟩, ⟨r2, b1, b2⟩,
    correction_solves (P := demoProb per F E mate) (fun _ => ⟨fun _ _ => rfl, fun _ _ => rfl⟩) (fun _ _ _ _ _ _ _ => (sub_zero _).symm) X Δ, r3, Z, c1, c2, ?_⟩
  have h1 : ∀ i, (demoProb per F E mate).relax i = 1 := fun _ => rfl
  simp only [h1, one_smul] at c3
  exact c3

/-! ## Rows that are built by the code -/

section built

open DNDSR.Jet (QPoint CellBase)
open DNDSR.Rec (Side Sits Agrees energy space2 frame2 demoCell demoFn demoBnd demo_length2 row_regular2 laws2 poly)

/-- the faces of two cells side by side: the one they share, and boundary faces -/
noncomputable def demoFaces (i : Nat) : List Side :=
  (List.range 4).map fun j => if (i, j) = (0, 1) then ⟨demoFn, 0, false, [⟨1, 2, ![1, 0, 0]⟩], some demoCell⟩
    else if (i, j) = (1, 3) then ⟨demoFn, 0, true, [⟨1, 2, ![1, 0, 0]⟩], some demoCell⟩
    else ⟨demoBnd, 7, false, [⟨1, 1, ![0, 1, 0]⟩], none⟩

theorem demoFaces_get {i j : Nat} {s : Side} (h : (demoFaces i)[j]? = some s) : j < 4 ∧ s = if (i, j) = (0, 1) then ⟨demoFn, 0, false, [⟨1, 2, ![1, 0, 0]⟩], some demoCell⟩
    else if (i, j) = (1, 3) then ⟨demoFn, 0, true, [⟨1, 2, ![1, 0, 0]⟩], some demoCell⟩
    else ⟨demoBnd, 7, false, [⟨1, 1, ![0, 1, 0]⟩], none⟩ := by
  have hj : j < 4 := by
    have := (List.getElem?_eq_some_iff.1 h).1
    simpa [demoFaces] using this
  rw [demoFaces, List.getElem?_map, List.getElem?_range hj] at h
  exact ⟨hj, (Option.some.inj h).symm⟩

theorem first_of_boundary {per : Bool} {G : List Cell} {F : Nat → Nat → Int} {E : Int → Nat × Nat} {mate : Nat → Nat → Option Nat}
    (hN : Numbered per cl nl G ranks outs F) (hE : Orient per cl G ranks outs F E) (hM : Mates per G F mate) {i j : Nat} (hj : j < nSides G i)
    (hm : mate i j = none) : E (F i j) = (i, j) := by
  obtain ⟨a, ha⟩ := isSlot_of (per := per) hj
  obtain ⟨e, b, hb⟩ := hE.slot (F i j) (hN.range i j a ha)
  by_contra hne
  have := (hM i j a ha (E (F i j)).1).2 ⟨_, b, hb, e, hne⟩
  rw [hm] at this
  cases this

/-- In the plane, to second order, with boundary values that are those of the inside: the system the code builds exists, the same polynomial in both
cells solves it, and solving it is being a least squares fit in each cell. -/
example (srt : Sorter) (hs : Sorts srt) (x : Matrix (Fin 5) (Fin 1) ℝ) (u : Fin 1 → ℝ) :
    ∃ gc ranks outs rs P A, interpolate false srt gc ranks = .ok outs ∧ OnMesh [1, 1] [4, 2] gc ranks outs rs P ∧
      RowsBuilt space2 ⟨false, Per.quarter⟩ frame2 2 (·⁻¹) P (fun _ => demoCell) demoFaces (fun _ _ _ uBL _ => uBL) A ∧ P.Solves (fun _ => x) ∧
      ∀ X, P.Solves X ↔ ∀ i < 2, ∀ v y, energy space2 ⟨false, Per.quarter⟩ frame2 2 demoCell (X i) (P.U i) (around P demoFaces (fun _ _ _ uBL _ => uBL) X i) v (fun j => X i j v) ≤
        energy space2 ⟨false, Per.quarter⟩ frame2 2 demoCell (X i) (P.U i) (around P demoFaces (fun _ _ _ uBL _ => uBL) X i) v y := by
  obtain ⟨gc, ranks, hD, _⟩ := TwoQuads.exists_ranks false
  obtain ⟨outs, _, hI, _⟩ := faces_global false srt hs _ _ _ _ _ hD
  obtain ⟨F, E, mate, hN, hE, hM⟩ := system_exists hs hD hI
  have hsides : ∀ i < 2, nSides TwoQuads.mesh i = 4 := by decide
  have hmates := fun {i j : Nat} (hi : i < 2) (hj : j < 4) => twoQuads_mates hN hM hi hj
  let P0 : Prob 5 1 ℝ := ⟨false, TwoQuads.mesh, F, E, mate, ⟨true, fun _ w => w, fun _ w => w⟩, fun _ => u, 0, 0, 0, 1, 0, fun _ _ _ => 0, fun _ _ _ _ => 0⟩
  have hsits : ∀ i < 2, ∀ s ∈ demoFaces i, Sits ⟨false, Per.quarter⟩ frame2 demoCell s := by
    intro i hi s hsm
    obtain ⟨j, hj⟩ := List.mem_iff_getElem?.1 hsm
    obtain ⟨_, rfl⟩ := demoFaces_get hj
    split_ifs
    all_goals
      refine ⟨fun h => absurd h (by decide), fun g hg => ?_, fun C' hC g hg => ?_⟩
      · rw [List.mem_singleton.mp hg]; rfl
      · first
          | (cases hC; done)
          | (rw [List.mem_singleton.mp hg, ← Option.some.inj hC]; rfl)
  obtain ⟨AInv, B, b, bc, A, hB⟩ := rows_exist laws2 ⟨false, Per.quarter⟩ (m := 2) (by omega) rfl P0 (fun _ => demoCell) demoFaces (fun _ _ _ uBL _ => uBL)
    (fun i _ j hj hm => first_of_boundary hN hE hM hj hm) (fun i hi => by rw [hsides i hi]; simp [demoFaces]) hsits (by
      intro i hi s hsm g hg
      obtain ⟨j, hj⟩ := List.mem_iff_getElem?.1 hsm
      obtain ⟨_, rfl⟩ := demoFaces_get hj
      split_ifs at hg <;> rw [List.mem_singleton.mp hg] <;> norm_num) (by
      intro i hi j s hj
      obtain ⟨hj4, rfl⟩ := demoFaces_get hj
      show ((mate i j).isSome = true → _) ∧ (mate i j = none → _)
      rw [hmates hi hj4]
      split_ifs <;> simp) (by
      intro i hi
      have hmem : ∃ s ∈ demoFaces i, s.F = demoFn ∧ s.q = [⟨1, 2, ![1, 0, 0]⟩] := by
        have hi : i < 2 := hi
        match i, hi with
        | 0, _ => exact ⟨_, List.mem_of_getElem? (show (demoFaces 0)[1]? = some _ from rfl), rfl, rfl⟩
        | 1, _ => exact ⟨_, List.mem_of_getElem? (show (demoFaces 1)[3]? = some _ from rfl), rfl, rfl⟩
      obtain ⟨s, hsm, hF, hq⟩ := hmem
      refine row_regular2 _ (by omega) rfl demoCell _ (by
        show IsUnit (Per.block (if false then _ else (1 : Per.M3))).det
        simp [Per.block, det_fin_two]) (fun _ => ⟨one_ne_zero, zero_le_one⟩) hsm (g := ⟨1, 2, ![1, 0, 0]⟩) (by rw [hq]; simp) (by norm_num) (fun k _ h => ?_) ?_
      · rw [hF]
        show (if k ≤ 2 then (1 : ℝ) else 0) ≠ 0
        rw [if_pos h]; exact one_ne_zero
      · rw [hF]
        show if false = true then _ else Rec.faceL space2 demoFn ≠ 0
        exact demo_length2)
  obtain ⟨rs, hP, -⟩ := onmesh_exists (P := { P0 with AInv := AInv, B := B, b := b, bc := bc }) hD hN hE hM (fun _ => rfl) (fun _ => x) 0 0
  refine ⟨gc, ranks, outs, rs, _, A, hI, hP, hB, ?_, fun X => (solves_least_squares2 ⟨false, Per.quarter⟩ (by omega) rfl hB X).1⟩
  refine (solves_least_squares2 ⟨false, Per.quarter⟩ (by omega) rfl hB _).2 fun i hi sa hsa => ?_
  have hi : i < 2 := hi
  obtain ⟨j, hj⟩ := List.mem_iff_getElem?.1 hsa
  obtain ⟨h1, h2⟩ := List.getElem?_zip_eq_some.1 hj
  obtain ⟨hj4, e1⟩ := demoFaces_get h1
  rw [List.getElem?_map, List.getElem?_range (by rw [show nSides _ i = 4 from hsides i hi]; exact hj4)] at h2
  have e2 := (Option.some.inj h2).symm
  rw [(by
    intro o h
    subst h
    show (match mate i j with | some i' => _ | none => _) = _
    cases mate i j <;> rfl : ∀ o, mate i j = o → across { P0 with AInv := AInv, B := B, b := b, bc := bc } (fun _ _ _ uBL _ => uBL) (fun _ => x) i j =
      match o with | some _ => .cell x u | none => .bnd (fun _ uBL _ => uBL)) _ (hmates hi hj4)] at e2
  obtain ⟨s, a⟩ := sa
  dsimp only at e1 e2
  subst e1
  have hsplit : ∀ c : Prop, [Decidable c] → (c ∨ ¬ c) := fun c _ => Classical.em c
  rcases hsplit ((i, j) = (0, 1)) with h01 | h01
  · rw [if_pos h01] at e2 ⊢
    subst e2
    intro g hg v
    refine .inl fun y => ?_
    show poly frame2 demoCell (fun j => x j v) (u v) (![y 0, y 1]) = _
    congr 1
    funext i
    match i with
    | 0 => rfl
    | 1 => rfl
  · rw [if_neg h01] at e2 ⊢
    rcases hsplit ((i, j) = (1, 3)) with h13 | h13
    · rw [if_pos h13] at e2 ⊢
      subst e2
      intro g hg v
      refine .inl fun y => ?_
      show poly frame2 demoCell (fun j => x j v) (u v) (![y 0, y 1]) = _
      congr 1
      funext i
      match i with
      | 0 => rfl
      | 1 => rfl
    · rw [if_neg h13] at e2 ⊢
      subst e2
      intro g hg v
      refine .inr ⟨fun k h1 _ => ?_, rfl⟩
      show (if k = 0 then (1 : ℝ) else 0) = 0
      rw [if_neg (by omega)]

end built

/-! ## Where the code falls short -/

/-- one cell with two boundary faces, where the boundary values are `bc` of the coefficient -/
def lone (relax : ℚ) (bc : ℚ → ℚ) : Sys 1 1 ℚ :=
  ⟨1, [⟨⟨.line2, [0, 1], []⟩, 0, unInit⟩, ⟨⟨.line2, [1, 2], []⟩, 0, unInit⟩], [[0, 1]], [], false, [7, 7], [[1, 0, 0]], [[0, 0]], [relax],
    [fun x _ => !![bc (x 0 0)], fun x _ => !![bc (x 0 0)]], [fun _ _ _ => 0, fun _ _ _ => 0]⟩

/-- no periodic boundaries -/
def noTrans : Trans 1 ℚ := ⟨false, fun _ w => w, fun _ w => w⟩

/-- With `uRecIsZero` the boundary faces are left out: where the boundary values are one, the residual of zero is recorded as zero, though it is -2. -/
theorem zero_residual_drops_boundary : iter noTrans (lone 1 fun _ => 1) false true true true [0] [0] [0] = .ok ([0], [0]) ∧
    iter noTrans (lone 1 fun _ => 1) false true true false [0] [0] [0] = .ok ([0], [!![-2]]) := by
  constructor
  · simp [iter, sweep, iterBody, faceLoop, lone, at64, idx, Res.ok_bind, List.range_succ, unInit, Res.assert]
  · simp [iter, sweep, iterBody, faceLoop, lone, at64, idx, Res.ok_bind, List.range_succ, unInit, Res.assert]
    norm_num

/-- With `SORInstead` the second boundary face sees the coefficient that is half made. The residual at 1 is zero and Jacobi's mode stays there, but the
sweep leaves it. -/
theorem sweep_leaves_solution :
    iter noTrans (lone 1 fun t => (t + 1) / 4) false true true false [0] [!![1]] [0] = .ok ([!![1]], [0]) ∧
    iter noTrans (lone 1 fun t => (t + 1) / 4) false false false false [0] [!![1]] [0] = .ok ([!![1]], [!![1]]) ∧
    iter noTrans (lone 1 fun t => (t + 1) / 4) true false false false [0] [!![1]] [0] = .ok ([!![9 / 16]], [0]) := by
  refine ⟨?_, ?_, ?_⟩
  · simp [iter, sweep, iterBody, faceLoop, lone, at64, idx, Res.ok_bind, List.range_succ, unInit, Res.assert]
    norm_num
    ext a b
    rw [Subsingleton.elim a 0, Subsingleton.elim b 0]
    rfl
  · simp [iter, sweep, iterBody, faceLoop, lone, at64, idx, Res.ok_bind, List.range_succ, unInit, Res.assert]
    norm_num
  · simp [iter, sweep, iterBody, faceLoop, lone, at64, idx, Res.ok_bind, List.range_succ, unInit, Res.assert]
    norm_num

/-- With `relax` a half, `DoReconstructionIterSOR` stays at 2 for the right side 1, though the system maps 2 to 2. -/
theorem sweep_scales : iterSOR noTrans (lone (1 / 2) fun _ => 0) [0] [0] [!![1]] [!![2]] false = .ok [!![2]] ∧
    iterDiff noTrans (lone (1 / 2) fun _ => 0) [0] [0] [!![2]] [0] = .ok [!![2]] := by
  constructor
  · simp [iterSOR, Sweep.order, sweep, sorBody, faceLoop, lone, at64, idx, Res.ok_bind, List.range_succ, unInit]
    norm_num
  · simp [iterDiff, sweep, diffBody, faceLoop, lone, at64, idx, Res.ok_bind, List.range_succ, unInit]

end DNDSR.RecIt
