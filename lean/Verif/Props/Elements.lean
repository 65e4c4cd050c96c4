import Verif.Spec.Elements

/-!
# C48 face tables, C54 elevation and bisection tables, C51 order queries

All statements about tables are about every element type and every face, edge, added node or part of it; these
are finitely many and are decided by the kernel.
-/

namespace DNDSR.Elem

/-! ### the extraction functions only rename -/

theorem pick_map {α β : Type} (g : α → β) (nodes : List α) (r : List Int) (i : Nat) :
    pick (nodes.map g) r i = (pick nodes r i >>= fun a => .ok (g a)) := by
  unfold pick
  cases r[i]? with
  | none => rfl
  | some k =>
    simp only
    split
    · rw [List.getElem?_map]
      cases nodes[k.toNat]? <;> rfl
    · rfl

instance : LawfulMonad Res := LawfulMonad.mk'
  (id_map := fun x => by cases x <;> rfl)
  (pure_bind := fun _ _ => rfl)
  (bind_assoc := fun x _ _ => by cases x <;> rfl)

theorem mapM_map {α β : Type} (g : α → β) (p : Nat → Res α) (q : Nat → Res β)
    (h : ∀ i, q i = (p i >>= fun a => .ok (g a))) (l : List Nat) :
    l.mapM q = (l.mapM p >>= fun r => .ok (r.map g)) := by
  induction l with
  | nil => rfl
  | cons x l ih =>
    rw [List.mapM_cons, List.mapM_cons, h x, ih]
    cases p x with
    | ok a => cases l.mapM p <;> rfl
    | abort => rfl
    | ub => rfl

theorem pickAll_map {α β : Type} (g : α → β) (nodes : List α) (r : List Int) (n : Nat) :
    pickAll (nodes.map g) r n = (pickAll nodes r n >>= fun l => .ok (l.map g)) :=
  mapM_map g _ _ (pick_map g nodes r) _

/-- the nodes of a list of the right length, as the image of the local numbers -/
theorem locals_map {α : Type} [Inhabited α] (t : ElemType) (nodes : List α) (h : nodes.length = (numNodes t).toNat) :
    (locals t).map (fun k => nodes[k]?.getD default) = nodes := by
  unfold locals
  apply List.ext_getElem?
  intro i
  rw [List.getElem?_map, ← h]
  by_cases hi : i < nodes.length
  · rw [List.getElem?_range hi, List.getElem?_eq_getElem hi]; simp [hi]
  · rw [List.getElem?_eq_none (by rw [List.length_range]; omega), List.getElem?_eq_none (by omega)]; rfl

/-! ### C48 -/

/-- C48. Every face list exists, has as many entries as the face type has nodes, all distinct nodes of the element;
the corners of the face are corners of the element and its other nodes are not; the face type is of one
dimension less and the same order. -/
theorem face_lists_valid (t : ElemType) (ht : t ≠ .unknown) : ∀ f ∈ faces t,
    extractFaceNodes t f (locals t) = .ok (fnodes t f) ∧
    ((fnodes t f).length : Int) = numNodes (faceType t f) ∧ (fnodes t f).Nodup ∧
    (∀ k ∈ fnodes t f, (k : Int) < numNodes t) ∧
    (∀ k ∈ loop t f, (k : Int) < numVertices t) ∧
    (∀ k ∈ (fnodes t f).drop (numVertices (faceType t f)).toNat, numVertices t ≤ (k : Int)) ∧
    dim (faceType t f) + 1 = dim t ∧ order (faceType t f) = order t := by
  cases t <;> first | exact absurd rfl ht | decide +kernel

/-- C48. The faces of a physical element are its face list applied to its nodes. -/
theorem face_extract {α : Type} [Inhabited α] (t : ElemType) (ht : t ≠ .unknown) (f : Nat) (hf : f ∈ faces t)
    (nodes : List α) (hn : nodes.length = (numNodes t).toNat) :
    extractFaceNodes t f nodes = .ok ((fnodes t f).map (fun k => nodes[k]?.getD default)) := by
  have h := (face_lists_valid t ht f hf).1
  rw [← locals_map t nodes hn]
  unfold extractFaceNodes at h ⊢
  by_cases ha : (f : Int) < numFaces t
  · rw [Res.assert_true _ ha] at h ⊢
    rw [Res.ok_bind] at h ⊢
    cases hr : row (faceNodeList t) f with
    | ok r =>
      rw [hr, Res.ok_bind] at h
      rw [Res.ok_bind, pickAll_map, h, Res.ok_bind, locals_map t nodes hn]
    | abort => rw [hr] at h; cases h
    | ub => rw [hr] at h; cases h
  · simp only [Res.assert, if_neg ha, Res.abort_bind] at h
    cases h

/-- C48. In a volume element every directed edge of a face is traversed by exactly one face, and by exactly one face
in the opposite direction: the boundary is closed and consistently oriented. -/
theorem face_edges_opposite (t : ElemType) (ht : dim t = 3) : ∀ e ∈ faceEdges t,
    (faceEdges t).count e = 1 ∧ (faceEdges t).count (e.2, e.1) = 1 ∧ e.1 ≠ e.2 := by
  cases t <;> first | exact absurd ht (by decide) | decide +kernel

/-- C48. In a plane element every corner begins exactly one face and ends exactly one. -/
theorem face_ends_opposite (t : ElemType) (ht : dim t = 2) : ∀ k ∈ List.range (numVertices t).toNat,
    ((faces t).map (fun f => (loop t f)[0]?)).count (some k) = 1 ∧
    ((faces t).map (fun f => (loop t f)[1]?)).count (some k) = 1 ∧
    (numFaces t = numVertices t) := by
  cases t <;> first | exact absurd ht (by decide) | decide +kernel

/-- C48. Every face normal of the parametric element points outwards. -/
theorem faces_outward (t : ElemType) (ht : t ≠ .unknown) : ∀ f ∈ faces t, Outward t f := by
  unfold Outward
  cases t <;> first | exact absurd rfl ht | decide +kernel

/-- C48. Two faces of an element never have the same corners. -/
theorem faces_distinct (t : ElemType) (ht : t ≠ .unknown) : ∀ f ∈ faces t, ∀ g ∈ faces t, f ≠ g →
    ∃ k ∈ loop t f, k ∉ loop t g := by
  cases t <;> first | exact absurd rfl ht | decide +kernel

example : faces .hex8 = [0, 1, 2, 3, 4, 5] ∧ loop .hex8 0 = [0, 3, 2, 1] ∧ (faceEdges .prism18).length = 18 := by
  decide +kernel

/-! ### C54 -/

/-- C54. The elevated type has the added nodes behind the original ones, each at the mean of its span; the span has
as many nodes as its type. -/
theorem elevation_nodes (t : ElemType) (ht : order t = 1) :
    numNodes (elevatedType t) = numNodes t + numElev t ∧ order (elevatedType t) = 2 ∧
    dim (elevatedType t) = dim t ∧ numVertices (elevatedType t) = numVertices t ∧
    numFaces (elevatedType t) = numFaces t ∧ paramSpace (elevatedType t) = paramSpace t ∧
    elemO1 (paramSpace (elevatedType t)) = t ∧
    (∀ k ∈ locals t, pt (elevatedType t) k = pt t k) ∧
    (∀ i ∈ List.range (numElev t).toNat,
      extractElevSpan t i (locals t) = .ok (span t i) ∧ (span t i).Nodup ∧
      ((span t i).length : Int) = numNodes (elevSpanType t i) ∧
      smul (span t i).length (pt (elevatedType t) ((numNodes t).toNat + i)) = sum ((span t i).map (pt t))) := by
  cases t <;> first | exact absurd ht (by decide) | decide +kernel

/-- C54. Elevation agrees with faces: the faces of the elevated element keep the corners, and the added nodes of a
face, elevated by itself, have the same span as the node of the element's face list at that place. -/
theorem elevation_faces (t : ElemType) (ht : order t = 1) : ∀ f ∈ faces t,
    faceType (elevatedType t) f = elevatedType (faceType t f) ∧
    (fnodes (elevatedType t) f).take (numNodes (faceType t f)).toNat = fnodes t f ∧
    (∀ i ∈ List.range (numElev (faceType t f)).toNat,
      let k := at_ (fnodes (elevatedType t) f) ((numNodes (faceType t f)).toNat + i)
      ∀ v ∈ locals t, v ∈ span t (k - (numNodes t).toNat) ↔ v ∈ (span (faceType t f) i).map (at_ (fnodes t f))) := by
  cases t <;> first | exact absurd ht (by decide) | decide +kernel

/-- C54. Every edge of a volume element is spanned by exactly one added node. -/
theorem elevation_edges (t : ElemType) (ht : order t = 1) (hd : dim t = 3) : ∀ e ∈ faceEdges t,
    ((List.range (numElev t).toNat).map (span t)).count [e.1, e.2] +
    ((List.range (numElev t).toNat).map (span t)).count [e.2, e.1] = 1 := by
  cases t <;> first | exact absurd ht (by decide) | exact absurd hd (by decide) | decide +kernel

/-- C54. The parts of a bisected element consist of distinct nodes, have positive measure and together the measure of
the element, in every variant. -/
theorem bisection_measure (t : ElemType) (ht : order t = 2) :
    ∀ v ∈ List.range (bisectVariants t).toNat,
      (∀ i ∈ List.range (bisectNum t).toNat,
        extractBisect t i v (locals t) = .ok (part t v i) ∧ (part t v i).Nodup ∧
        ((part t v i).length : Int) = numNodes (bisectElem t i) ∧ order (bisectElem t i) = 1 ∧
        dim (bisectElem t i) = dim t ∧ 0 < measure (bisectElem t i) ((part t v i).map (pt t))) ∧
      ((parts t v).map (fun p => measure p.1 (p.2.map (pt t)))).sum = wholeMeasure t := by
  cases t <;> first | exact absurd ht (by decide) | decide +kernel

/-- C54. Bisection is conforming, in every variant: inside the element the faces of the parts match in pairs of
opposite orientation, and on its boundary they are exactly the parts into which the boundary faces are bisected. -/
theorem bisection_conforming (t : ElemType) (ht : order t = 2) (hd : 2 ≤ dim t) :
    ∀ v ∈ List.range (bisectVariants t).toNat, Conforming t v := by
  unfold Conforming
  cases t <;> first | exact absurd ht (by decide) | exact absurd hd (by decide) | decide +kernel

example : span .hex8 18 = [0, 1, 2, 3, 4, 5, 6, 7] ∧ part .pyramid14 1 8 = [10, 12, 9, 4] ∧
    (partFaces .pyramid14 1).length = 52 ∧ (boundaryParts .pyramid14).length = 20 ∧ wholeMeasure .tet10 = 8 := by
  decide +kernel

/-! ### C51 -/

theorem hasBad_eq (ok : ElemType → Bool) (ts : List ElemType) :
    hasBad ok ts = 0 ↔ ∀ t ∈ ts, ok t = true := by
  induction ts with
  | nil => simp [hasBad]
  | cons t ts ih =>
    unfold hasBad
    by_cases h : ok t = true
    · rw [if_pos h, ih]; simp [h]
    · rw [if_neg h]; simp [h]

theorem okO1_iff (t : ElemType) : okO1 t = true ↔ order t = 1 := by cases t <;> decide
theorem okO2_iff (t : ElemType) : okO2 t = true ↔ order t = 2 := by cases t <;> decide

/-- C51. Each rank answers about its own cells; the mesh is of the order asked for exactly when every rank says so, so
the ranks agree if it is.  (Missing: if it is not, ranks whose own cells are of that order still answer yes; see
`isO1_ranks_disagree`.) -/
theorem order_queries_partial (ranks : List (List ElemType)) :
    (isO1 ranks = ranks.map (fun ts => decide (∀ t ∈ ts, order t = 1))) ∧
    (isO2 ranks = ranks.map (fun ts => decide (∀ t ∈ ts, order t = 2))) ∧
    ((∀ b ∈ isO1 ranks, b = true) ↔ ∀ ts ∈ ranks, ∀ t ∈ ts, order t = 1) ∧
    ((∀ b ∈ isO2 ranks, b = true) ↔ ∀ ts ∈ ranks, ∀ t ∈ ts, order t = 2) := by
  have h1 : isO1 ranks = ranks.map (fun ts => decide (∀ t ∈ ts, order t = 1)) := by
    unfold isO1
    rw [List.map_map]
    apply List.map_congr_left
    intro ts _
    have := hasBad_eq okO1 ts
    simp only [okO1_iff] at this
    rw [Bool.eq_iff_iff]
    simp [this]
  have h2 : isO2 ranks = ranks.map (fun ts => decide (∀ t ∈ ts, order t = 2)) := by
    unfold isO2
    rw [List.map_map]
    apply List.map_congr_left
    intro ts _
    have := hasBad_eq okO2 ts
    simp only [okO2_iff] at this
    rw [Bool.eq_iff_iff]
    simp [this]
  refine ⟨h1, h2, ?_, ?_⟩
  · rw [h1]; simp
  · rw [h2]; simp

/-- C51 counterexample: the ranks disagree about a mesh of which only one rank holds second order cells. -/
theorem isO1_ranks_disagree :
    isO1 [[.hex8, .hex8], [.hex8, .hex27]] = [true, false] ∧ isO2 [[.tri6], [.tri6, .quad4]] = [true, false] := by
  decide

end DNDSR.Elem
