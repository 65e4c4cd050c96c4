import Verif.Props.RecIter
import Verif.Props.Recon

/-!
# C81: what the iterations converge to

A solution of the system of the whole mesh is one where the polynomial of every cell is the least squares fit to those of its neighbours.
-/

namespace DNDSR.RecIt

open DNDSR.Jet (QPoint CellBase)
open DNDSR.Flux (nSides)
open DNDSR.Rec (Space Frame Wrap Side Across recRow boundaryRHS Sits Fits Agrees energy pull eachSide Laws row_claim space2 space3 frame2 frame3 laws2 laws3)
open Matrix

variable {N V : Nat}

/-- What is on the other side of face `j` of cell `i`: the neighbour's coefficients and mean value, turned, or the boundary condition `f`. -/
noncomputable def across (P : Prob N V ℝ) (f : Nat → Nat → QPoint → (Fin V → ℝ) → (Fin V → ℝ) → Fin V → ℝ) (X : Nat → Matrix (Fin N) (Fin V) ℝ) (i j : Nat) : Across N V :=
  match P.mate i j with
  | some i' => .cell (P.carryM i j (X i')) (P.carry i j (P.U i'))
  | none => .bnd (f i j)

/-- The faces of cell `i` with what is on their other sides. -/
noncomputable def around (P : Prob N V ℝ) (sides : Nat → List Side) (f : Nat → Nat → QPoint → (Fin V → ℝ) → (Fin V → ℝ) → Fin V → ℝ)
    (X : Nat → Matrix (Fin N) (Fin V) ℝ) (i : Nat) : List (Side × Across N V) :=
  (sides i).zip ((List.range (nSides P.G i)).map (across P f X i))

/-- The coefficients of the system are those the row of each cell was built with, and the inverses are exact. -/
structure RowsBuilt {d : Nat} (S : Space) (W : Wrap) (Fr : Frame d) (m : Nat) (inv : Matrix (Fin N) (Fin N) ℝ → Matrix (Fin N) (Fin N) ℝ) (P : Prob N V ℝ)
    (C : Nat → CellBase) (sides : Nat → List Side) (f : Nat → Nat → QPoint → (Fin V → ℝ) → (Fin V → ℝ) → Fin V → ℝ) (A : Nat → Matrix (Fin N) (Fin N) ℝ) : Prop where
  len : ∀ i < P.G.length, (sides i).length = nSides P.G i
  row : ∀ i < P.G.length, recRow S W m N inv (C i) (sides i) = .ok (A i, P.AInv i, (List.range (nSides P.G i)).map fun j => ⟨P.B i j, P.b i j⟩)
  inverse : ∀ i < P.G.length, P.AInv i * A i = 1
  bc : ∀ i < P.G.length, ∀ j s, (sides i)[j]? = some s → P.mate i j = none → ∀ x, boundaryRHS S W m (C i) s (f i j) x (P.U i) = .ok (P.bc (P.F i j) x (P.U i))
  sits : ∀ i < P.G.length, ∀ s ∈ sides i, Sits W Fr (C i) s
  weights : ∀ i < P.G.length, ∀ s ∈ sides i, ∀ g ∈ s.q, 0 ≤ g.w * g.det
  kind : ∀ i < P.G.length, ∀ j s, (sides i)[j]? = some s →
    ((P.mate i j).isSome = true → s.faceID ≤ 0 ∧ s.other.isSome = true) ∧ (P.mate i j = none → 0 < s.faceID ∧ s.other = none)

theorem eachSide_spec {α β : Type} (f : α → Res β) : ∀ (l : List α) (k : Nat) (t : Nat → β), (∀ j p, l[j]? = some p → f p = .ok (t (k + j))) →
    eachSide f l = .ok ((List.range' k l.length).map t)
  | [], _, _, _ => rfl
  | p :: l, k, t, h => by
      have h0 := h 0 p rfl
      have ih := eachSide_spec f l (k + 1) t fun j q hq => by
        rw [show k + 1 + j = k + (j + 1) by omega]
        exact h (j + 1) q hq
      rw [eachSide, h0, Res.ok_bind, ih, Res.ok_bind]
      rfl

section generic

variable {d : Nat} {S : Space} {Fr : Frame d} {R : List (List (Fin d))} (L : Laws S Fr R)

include L in
theorem solves_claim (W : Wrap) {m : Nat} (hm : m ≤ 3) (hN : S.rows m = N + 1) {inv : Matrix (Fin N) (Fin N) ℝ → Matrix (Fin N) (Fin N) ℝ} {P : Prob N V ℝ}
    {C : Nat → CellBase} {sides : Nat → List Side} {f : Nat → Nat → QPoint → (Fin V → ℝ) → (Fin V → ℝ) → Fin V → ℝ} {A : Nat → Matrix (Fin N) (Fin N) ℝ}
    (h : RowsBuilt S W Fr m inv P C sides f A) (X : Nat → Matrix (Fin N) (Fin V) ℝ) :
    (P.Solves X ↔ ∀ i < P.G.length, ∀ v y, energy S W Fr m (C i) (X i) (P.U i) (around P sides f X i) v (fun j => X i j v) ≤
      energy S W Fr m (C i) (X i) (P.U i) (around P sides f X i) v y) ∧
    ((∀ i < P.G.length, ∀ sa ∈ around P sides f X i, Agrees W Fr m (C i) (X i) (P.U i) sa) → P.Solves X) := by
  have key : ∀ i < P.G.length, (P.residual X i = 0 ↔ ∀ v y, energy S W Fr m (C i) (X i) (P.U i) (around P sides f X i) v (fun j => X i j v) ≤
      energy S W Fr m (C i) (X i) (P.U i) (around P sides f X i) v y) ∧
      ((∀ sa ∈ around P sides f X i, Agrees W Fr m (C i) (X i) (P.U i) sa) → P.residual X i = 0) := by
    intro i hi
    have hl := h.len i hi
    have hget : ∀ (j : Nat) sa, (around P sides f X i)[j]? = some sa → (sides i)[j]? = some sa.1 ∧ sa.2 = across P f X i j ∧ j < nSides P.G i := by
      intro j sa hj
      obtain ⟨h1, h2⟩ := List.getElem?_zip_eq_some.1 hj
      have hlt : j < nSides P.G i := by rw [← hl]; exact (List.getElem?_eq_some_iff.1 h1).1
      rw [List.getElem?_map, List.getElem?_range hlt] at h2
      exact ⟨h1, (Option.some.inj h2).symm, hlt⟩
    have hfst : (around P sides f X i).map (·.1) = sides i := by
      unfold around
      rw [List.map_fst_zip]
      rw [hl, List.length_map, List.length_range]
    have hlen : (around P sides f X i).length = nSides P.G i := by
      unfold around
      rw [List.length_zip, hl, List.length_map, List.length_range, Nat.min_self]
    have hs : ∀ sa ∈ around P sides f X i, Sits W Fr (C i) sa.1 ∧ Fits sa.1 sa.2 := by
      intro sa hsa
      obtain ⟨j, hj⟩ := List.mem_iff_getElem?.1 hsa
      obtain ⟨h1, h2, hlt⟩ := hget j sa hj
      refine ⟨h.sits i hi _ (List.mem_of_getElem? h1), ?_⟩
      obtain ⟨k1, k2⟩ := h.kind i hi j _ h1
      rw [h2, across]
      cases hm : P.mate i j with
      | none => exact k2 hm
      | some i' => exact k1 (by rw [hm]; rfl)
    have hw : ∀ sa ∈ around P sides f X i, ∀ g ∈ sa.1.q, 0 ≤ g.w * g.det := by
      intro sa hsa
      obtain ⟨j, hj⟩ := List.mem_iff_getElem?.1 hsa
      exact h.weights i hi _ (List.mem_of_getElem? (hget j sa hj).1)
    obtain ⟨A', cs, ps, r1, _, r3, _, _, _, r7⟩ := row_claim L W hm hN (C i) inv (X i) (P.U i) (around P sides f X i) hs hw
    rw [hfst, h.row i hi] at r1
    have e := Res.ok.inj r1
    have eA : A i = A' := congrArg (·.1) e
    have eI : P.AInv i = inv A' := congrArg (·.2.1) e
    have ec : ((List.range (nSides P.G i)).map fun j => (⟨P.B i j, P.b i j⟩ : Rec.Coeff N)) = cs := congrArg (·.2.2) e
    have hps : ps.sum = ∑ j ∈ Finset.range (nSides P.G i), P.part i j (X i) X := by
      have := eachSide_spec (fun p => pull S W m (C i) (inv A') (X i) (P.U i) p.1 p.2) ((around P sides f X i).zip cs) 0 (fun j => P.part i j (X i) X) (by
        intro j p hp
        obtain ⟨h1, h2⟩ := List.getElem?_zip_eq_some.1 hp
        obtain ⟨g1, g2, hlt⟩ := hget j _ h1
        rw [← ec, List.getElem?_map, List.getElem?_range hlt] at h2
        have h2 := (Option.some.inj h2).symm
        rw [Nat.zero_add]
        unfold pull Prob.part
        rw [g2, across, h2]
        cases hm : P.mate i j with
        | some i' => rfl
        | none =>
            simp only [h.bc i hi j _ g1 hm, Res.ok_bind, ← eI])
      rw [r3] at this
      rw [Res.ok.inj this, List.length_zip, ← ec, hlen, List.length_map, List.length_range, Nat.min_self, ← List.range_eq_range']
      rfl
    obtain ⟨c1, c2⟩ := r7 (by rw [← eI, ← eA]; exact h.inverse i hi)
    refine ⟨?_, fun ha => ?_⟩
    · rw [Prob.residual, sub_eq_zero, ← hps]
      exact c1 (X i)
    · rw [Prob.residual, sub_eq_zero, ← hps]
      exact (c2 ha).symm
  exact ⟨forall_congr' fun i => forall_congr' fun hi => (key i hi).1, fun ha i hi => (key i hi).2 (ha i hi)⟩

include L in
/-- rows can be built for any faces that see every polynomial -/
theorem rows_exist (W : Wrap) {m : Nat} (hm : m ≤ 3) (hN : S.rows m = N + 1) (P : Prob N V ℝ) (C : Nat → CellBase) (sides : Nat → List Side)
    (f : Nat → Nat → QPoint → (Fin V → ℝ) → (Fin V → ℝ) → Fin V → ℝ)
    (hE : ∀ i < P.G.length, ∀ j < nSides P.G i, P.mate i j = none → P.E (P.F i j) = (i, j))
    (hlen : ∀ i < P.G.length, (sides i).length = nSides P.G i) (hsits : ∀ i < P.G.length, ∀ s ∈ sides i, Sits W Fr (C i) s)
    (hw : ∀ i < P.G.length, ∀ s ∈ sides i, ∀ g ∈ s.q, 0 ≤ g.w * g.det)
    (hkind : ∀ i < P.G.length, ∀ j s, (sides i)[j]? = some s →
      ((P.mate i j).isSome = true → s.faceID ≤ 0 ∧ s.other.isSome = true) ∧ (P.mate i j = none → 0 < s.faceID ∧ s.other = none))
    (hsees : ∀ i < P.G.length, Rec.Sees S W Fr m N (C i) (sides i)) :
    ∃ AInv B b bc A, RowsBuilt S W Fr m (·⁻¹) { P with AInv := AInv, B := B, b := b, bc := bc } C sides f A := by
  have hrow : ∀ i, ∃ (A : Matrix (Fin N) (Fin N) ℝ) (cs : List (Rec.Coeff N)), i < P.G.length →
      recRow S W m N (·⁻¹) (C i) (sides i) = .ok (A, A⁻¹, cs) ∧ cs.length = nSides P.G i ∧ A⁻¹ * A = 1 := by
    intro i
    by_cases hi : i < P.G.length
    · have hfst : ((sides i).map fun s => (s, if s.faceID ≤ 0 then (.cell 0 0 : Across N V) else .bnd fun _ _ _ => 0)).map (·.1) = sides i := by
        rw [List.map_map]
        exact List.map_id _
      obtain ⟨A, cs, ps, r1, r2, _, _, _, r6, _⟩ := row_claim L W hm hN (C i) (·⁻¹) (0 : Matrix (Fin N) (Fin V) ℝ) 0
        ((sides i).map fun s => (s, if s.faceID ≤ 0 then .cell 0 0 else .bnd fun _ _ _ => 0)) (by
          intro sa hsa
          obtain ⟨s, hs, rfl⟩ := List.mem_map.1 hsa
          refine ⟨hsits i hi s hs, ?_⟩
          obtain ⟨j, hj⟩ := List.mem_iff_getElem?.1 hs
          obtain ⟨k1, k2⟩ := hkind i hi j s hj
          show Fits s (if s.faceID ≤ 0 then (.cell 0 0 : Across N V) else .bnd fun _ _ _ => 0)
          cases hmt : P.mate i j with
          | none =>
              obtain ⟨a, b⟩ := k2 hmt
              rw [if_neg (by omega)]
              exact ⟨a, b⟩
          | some i' =>
              obtain ⟨a, b⟩ := k1 (by rw [hmt]; rfl)
              rw [if_pos a]
              exact ⟨a, b⟩) (by
          intro sa hsa
          obtain ⟨s, hs, rfl⟩ := List.mem_map.1 hsa
          exact hw i hi s hs)
      rw [hfst] at r1 r6
      rw [List.length_map, hlen i hi] at r2
      exact ⟨A, cs, fun _ => ⟨r1, r2, Matrix.nonsing_inv_mul A (r6.2 (hsees i hi))⟩⟩
    · exact ⟨0, [], fun h => absurd h hi⟩
  choose A cs hA using hrow
  have hbc : ∀ (q : Int) (x : Matrix (Fin N) (Fin V) ℝ) (u : Fin V → ℝ), ∃ y : Matrix (Fin N) (Fin V) ℝ, ∀ i j s, P.E q = (i, j) → i < P.G.length → (sides i)[j]? = some s →
      P.mate i j = none → boundaryRHS S W m (C i) s (f i j) x u = .ok y := by
    intro q x u
    by_cases h : ∃ i j s, P.E q = (i, j) ∧ i < P.G.length ∧ (sides i)[j]? = some s ∧ P.mate i j = none
    · obtain ⟨i, j, s, h1, h2, h3, h4⟩ := h
      obtain ⟨A, cs, ps, _, r2, r3, _⟩ := row_claim L W hm hN (C i) (·⁻¹) x u [(s, .bnd (f i j))] (by
          intro sa hsa
          rw [List.mem_singleton] at hsa
          subst hsa
          exact ⟨hsits i h2 s (List.mem_of_getElem? h3), (hkind i h2 j s h3).2 h4⟩) (by
          intro sa hsa
          rw [List.mem_singleton] at hsa
          subst hsa
          exact hw i h2 s (List.mem_of_getElem? h3))
      cases cs with
      | nil => simp at r2
      | cons c cs =>
          obtain ⟨z, e1, _⟩ := (Res.bind_ok_iff _ _ _).1 r3
          obtain ⟨y, e2, _⟩ := (Res.bind_ok_iff _ _ _).1 e1
          refine ⟨y, fun i' j' s' h1' h2' h3' h4' => ?_⟩
          rw [h1] at h1'
          cases h1'
          rw [h3] at h3'
          cases h3'
          exact e2
    · exact ⟨0, fun i j s h1 h2 h3 h4 => absurd ⟨i, j, s, h1, h2, h3, h4⟩ h⟩
  choose bc hbc using hbc
  refine ⟨fun i => (A i)⁻¹, fun i j => ((cs i).getD j ⟨0, 0⟩).AInvB, fun i j => ((cs i).getD j ⟨0, 0⟩).AInvb, bc, A, hlen, ?_, fun i hi => (hA i hi).2.2, ?_, hsits, hw, hkind⟩
  · intro i hi
    obtain ⟨r1, r2, _⟩ := hA i hi
    rw [r1]
    congr 3
    refine List.ext_getElem (by rw [r2, List.length_map, List.length_range]) fun k h1 h2 => ?_
    rw [List.getElem_map, List.getElem_range]
    show (cs i)[k] = (⟨((cs i).getD k ⟨0, 0⟩).AInvB, ((cs i).getD k ⟨0, 0⟩).AInvb⟩ : Rec.Coeff N)
    rw [List.getD_eq_getElem _ _ h1]
  · intro i hi j s hs hmt x
    have hj : j < nSides P.G i := by rw [← hlen i hi]; exact (List.getElem?_eq_some_iff.1 hs).1
    exact hbc (P.F i j) x (P.U i) i j s (hE i hi j hj hmt) hi hs hmt

end generic

/-- **C81.** In the plane: the coefficients solve the system of the whole mesh exactly when the polynomial of every cell is the one that differs least
from its neighbours and the boundary values; and cells whose polynomials agree on all faces do. With `step_fixed_iff` these are what the iterations
leave as they are. -/
theorem solves_least_squares2 (W : Wrap) {m : Nat} (hm : m ≤ 3) (hN : space2.rows m = N + 1) {inv : Matrix (Fin N) (Fin N) ℝ → Matrix (Fin N) (Fin N) ℝ}
    {P : Prob N V ℝ} {C : Nat → CellBase} {sides : Nat → List Side} {f : Nat → Nat → QPoint → (Fin V → ℝ) → (Fin V → ℝ) → Fin V → ℝ}
    {A : Nat → Matrix (Fin N) (Fin N) ℝ} (h : RowsBuilt space2 W frame2 m inv P C sides f A) (X : Nat → Matrix (Fin N) (Fin V) ℝ) :
    (P.Solves X ↔ ∀ i < P.G.length, ∀ v y, energy space2 W frame2 m (C i) (X i) (P.U i) (around P sides f X i) v (fun j => X i j v) ≤
      energy space2 W frame2 m (C i) (X i) (P.U i) (around P sides f X i) v y) ∧
    ((∀ i < P.G.length, ∀ sa ∈ around P sides f X i, Agrees W frame2 m (C i) (X i) (P.U i) sa) → P.Solves X) :=
  solves_claim laws2 W hm hN h X

/-- **C81.** In space. -/
theorem solves_least_squares3 (W : Wrap) {m : Nat} (hm : m ≤ 3) (hN : space3.rows m = N + 1) {inv : Matrix (Fin N) (Fin N) ℝ → Matrix (Fin N) (Fin N) ℝ}
    {P : Prob N V ℝ} {C : Nat → CellBase} {sides : Nat → List Side} {f : Nat → Nat → QPoint → (Fin V → ℝ) → (Fin V → ℝ) → Fin V → ℝ}
    {A : Nat → Matrix (Fin N) (Fin N) ℝ} (h : RowsBuilt space3 W frame3 m inv P C sides f A) (X : Nat → Matrix (Fin N) (Fin V) ℝ) :
    (P.Solves X ↔ ∀ i < P.G.length, ∀ v y, energy space3 W frame3 m (C i) (X i) (P.U i) (around P sides f X i) v (fun j => X i j v) ≤
      energy space3 W frame3 m (C i) (X i) (P.U i) (around P sides f X i) v y) ∧
    ((∀ i < P.G.length, ∀ sa ∈ around P sides f X i, Agrees W frame3 m (C i) (X i) (P.U i) sa) → P.Solves X) :=
  solves_claim laws3 W hm hN h X

end DNDSR.RecIt
