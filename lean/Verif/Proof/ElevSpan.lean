import Verif.Spec.Elevation
import Verif.Props.Elements
import Verif.Proof.GhostMesh
import Verif.Proof.FacesFill

/-!
# Spans of new nodes: facts of the element tables, and the first cell that has a span
-/

namespace DNDSR.Elev

open DNDSR.IMap DNDSR.MeshAdj DNDSR.Faces DNDSR.Ghost
open DNDSR.Elem hiding V3
open DNDSR.Bits (Mark)
open DNDSR.Per (V3 Periodicity)

/-! ### the tables -/

theorem order_okO1 (t : ElemType) : order t = 1 ↔ okO1 t = true := by cases t <;> decide

theorem order_known (t : ElemType) (h : order t = 1) : t ≠ .unknown := by cases t <;> first | exact absurd h (by decide) | decide

theorem order2_known (t : ElemType) (h : order t = 1) : elevatedType t ≠ .unknown := by
  cases t <;> first | exact absurd h (by decide) | decide

theorem numElev_le (t : ElemType) : (numElev t).toNat ≤ 19 := by cases t <;> decide

theorem span_lt (t : ElemType) (ht : order t = 1) : ∀ k ∈ List.range (numElev t).toNat, span t k ≠ [] ∧ ∀ a ∈ span t k, a < (numNodes t).toNat := by
  cases t <;> first | exact absurd ht (by decide) | decide +kernel

theorem span_nodup (t : ElemType) (ht : order t = 1) {k : Nat} (hk : k < (numElev t).toNat) : (span t k).Nodup :=
  ((elevation_nodes t ht).2.2.2.2.2.2.2.2 k (List.mem_range.2 hk)).2.1

/-- different new nodes of an element have different spans -/
theorem span_differ (t : ElemType) (ht : order t = 1) : ∀ k ∈ List.range (numElev t).toNat, ∀ k' ∈ List.range (numElev t).toNat,
    k ≠ k' → ¬ ((∀ a ∈ span t k, a ∈ span t k') ∧ ∀ a ∈ span t k', a ∈ span t k) := by
  cases t <;> first | exact absurd ht (by decide) | decide +kernel

/-- a span all of whose nodes are on a face belongs to a node of that face -/
theorem span_face (t : ElemType) (ht : order t = 1) : ∀ f ∈ faces t, ∀ k ∈ List.range (numElev t).toNat,
    (∀ a ∈ span t k, a ∈ fnodes t f) → (numNodes t).toNat + k ∈ fnodes (elevatedType t) f := by
  cases t <;> first | exact absurd ht (by decide) | decide +kernel

/-- the nodes of a face of the elevated element: those of the face, then new nodes with spans on the face -/
theorem face_split (t : ElemType) (ht : order t = 1) : ∀ f ∈ faces t,
    faceType (elevatedType t) f = elevatedType (faceType t f) ∧
    (fnodes (elevatedType t) f).take (numNodes (faceType t f)).toNat = fnodes t f ∧
    numVertices (elevatedType (faceType t f)) = numVertices (faceType t f) ∧
    (numVertices (faceType t f)).toNat = (fnodes t f).length ∧
    numFaces (elevatedType t) = numFaces t ∧
    ∀ a ∈ (fnodes (elevatedType t) f).drop (numNodes (faceType t f)).toNat,
      (numNodes t).toNat ≤ a ∧ a - (numNodes t).toNat < (numElev t).toNat ∧
      ∀ v ∈ span t (a - (numNodes t).toNat), v ∈ fnodes t f := by
  cases t <;> first | exact absurd ht (by decide) | decide +kernel

theorem span_extract {α : Type} [Inhabited α] (t : ElemType) (ht : order t = 1) {k : Nat} (hk : k < (numElev t).toNat)
    (nodes : List α) (hn : nodes.length = (numNodes t).toNat) :
    extractElevSpan t k nodes = .ok ((span t k).map (fun a => nodes[a]?.getD default)) := by
  have h := ((elevation_nodes t ht).2.2.2.2.2.2.2.2 k (List.mem_range.2 hk)).1
  rw [← locals_map t nodes hn]
  unfold extractElevSpan at h ⊢
  by_cases ha : (k : Int) < numElev t
  · rw [Res.assert_true _ ha] at h ⊢
    rw [Res.ok_bind] at h ⊢
    cases hr : row (elevationSpan t) k with
    | ok r =>
      rw [hr, Res.ok_bind] at h
      rw [Res.ok_bind, pickAll_map, h, Res.ok_bind, locals_map t nodes hn]
    | abort => rw [hr] at h; cases h
    | ub => rw [hr] at h; cases h
  · simp only [Res.assert, if_neg ha, Res.abort_bind] at h
    cases h

/-! ### spans in the mesh -/

variable {per : Bool} {P : Periodicity} {ps : List Piece} {X : Int → V3}

theorem IsNew.mem {i k : Nat} {C : Cell} (h : IsNew ps i k C) : C ∈ whole ps := List.mem_of_getElem? h.1

theorem IsNew.isCell {i k : Nat} {C : Cell} (h : IsNew ps i k C) : IsCell ps i C := ⟨by omega, by simpa using h.1⟩

theorem IsNew.unique {i k k' : Nat} {C D : Cell} (h : IsNew ps i k C) (h' : IsNew ps i k' D) : C = D := Option.some.inj (h.1.symm.trans h'.1)

namespace Elevatable

variable (hE : Elevatable per P ps X)
include hE

theorem len {C : Cell} (hC : C ∈ whole ps) : C.nodes.length = (numNodes C.type).toNat := (hE.mesh.valid C hC).1.nodes

theorem nodup {C : Cell} (hC : C ∈ whole ps) : C.nodes.Nodup := (hE.mesh.valid C hC).2

theorem at_node {C : Cell} (hC : C ∈ whole ps) {a : Nat} (ha : a < (numNodes C.type).toNat) : C.nodes[a]? = some (C.nodes[a]?.getD 0) := by
  rw [List.getElem?_eq_getElem (by rw [hE.len hC]; exact ha)]; rfl

theorem node_inj {C : Cell} (hC : C ∈ whole ps) {a b : Nat} (ha : a < (numNodes C.type).toNat) (hb : b < (numNodes C.type).toNat)
    (h : C.nodes[a]?.getD 0 = C.nodes[b]?.getD 0) : a = b := by
  have h1 := hE.at_node hC ha
  have h2 := hE.at_node hC hb
  rw [h, ← h2] at h1
  exact (List.getElem?_inj (by rw [hE.len hC]; exact ha) (hE.nodup hC)).1 h1

theorem span_mem {i k : Nat} {C : Cell} (h : IsNew ps i k C) : spanOf C k ≠ [] ∧ ∀ q ∈ spanOf C k, q ∈ C.nodes := by
  obtain ⟨h1, h2⟩ := span_lt C.type (hE.order C h.mem) k (List.mem_range.2 h.2)
  refine ⟨by unfold spanOf; simpa using h1, ?_⟩
  intro q hq
  obtain ⟨a, ha, rfl⟩ := List.mem_map.1 hq
  exact List.mem_of_getElem? (hE.at_node h.mem (h2 a ha))

theorem span_nodup {i k : Nat} {C : Cell} (h : IsNew ps i k C) : (spanOf C k).Nodup := by
  have h2 := (span_lt C.type (hE.order C h.mem) k (List.mem_range.2 h.2)).2
  refine List.Nodup.map_on ?_ (Elev.span_nodup C.type (hE.order C h.mem) h.2)
  intro a ha b hb e
  exact hE.node_inj h.mem (h2 a ha) (h2 b hb) e

/-- different new nodes of a cell have different spans -/
theorem span_inj {i k k' : Nat} {C : Cell} (h : IsNew ps i k C) (h' : IsNew ps i k' C) (hp : (spanOf C k').Perm (spanOf C k)) : k = k' := by
  by_contra hne
  have h1 := (span_lt C.type (hE.order C h.mem) k (List.mem_range.2 h.2)).2
  have h2 := (span_lt C.type (hE.order C h.mem) k' (List.mem_range.2 h'.2)).2
  refine span_differ C.type (hE.order C h.mem) k (List.mem_range.2 h.2) k' (List.mem_range.2 h'.2) hne ⟨?_, ?_⟩
  · intro a ha
    obtain ⟨b, hb, e⟩ := List.mem_map.1 (hp.mem_iff.2 (List.mem_map.2 ⟨a, ha, rfl⟩))
    rw [← hE.node_inj h.mem (h2 b hb) (h1 a ha) e]; exact hb
  · intro a ha
    obtain ⟨b, hb, e⟩ := List.mem_map.1 (hp.mem_iff.1 (List.mem_map.2 ⟨a, ha, rfl⟩))
    rw [← hE.node_inj h.mem (h1 b hb) (h2 a ha) e]; exact hb

/-- cells with the same span put the node at the same place -/
theorem same_point {i k j k' : Nat} {C D : Cell} (h : IsNew ps i k C) (h' : IsNew ps j k' D) (hp : (spanOf D k').Perm (spanOf C k)) :
    nodePoint per P X D k' = nodePoint per P X C k := by
  cases hper : per with
  | true => subst hper; exact hE.place rfl i k j k' C D h h' hp
  | false =>
    have e : ∀ (E : Cell) (n : Nat), (span E.type n).map (seen false P X E) = (spanOf E n).map X := by
      intro E n
      simp only [spanOf, List.map_map]
      rfl
    have l : ∀ (E : Cell) (n : Nat), (span E.type n).length = (spanOf E n).length := by intro E n; simp [spanOf]
    show middle false P X D k' = middle false P X C k
    unfold middle
    rw [e, e, l, l, hp.length_eq, (hp.map X).sum_eq]

end Elevatable

/-- cell `i` is the first one that has all nodes of the span -/
def First (ps : List Piece) (i k : Nat) (C : Cell) : Prop :=
  IsNew ps i k C ∧ ∀ (j : Nat) (D : Cell), (whole ps)[j]? = some D → (∀ q ∈ spanOf C k, q ∈ D.nodes) → i ≤ j

theorem exists_first (hE : Elevatable per P ps X) {i k : Nat} {C : Cell} (h : IsNew ps i k C) :
    ∃ i' k' C', First ps i' k' C' ∧ (spanOf C' k').Perm (spanOf C k) ∧ i' ≤ i := by
  classical
  let Q : Nat → Prop := fun j => ∃ D, (whole ps)[j]? = some D ∧ ∀ q ∈ spanOf C k, q ∈ D.nodes
  have hQ : ∃ j, Q j := ⟨i, C, h.1, (hE.span_mem h).2⟩
  obtain ⟨D, hD, hs⟩ := Nat.find_spec hQ
  obtain ⟨k', hk', hp⟩ := hE.spans i k _ C D h hD hs
  refine ⟨_, k', D, ⟨hk', ?_⟩, hp, Nat.find_min' hQ ⟨C, h.1, (hE.span_mem h).2⟩⟩
  intro j D' hD' hs'
  exact Nat.find_min' hQ ⟨D', hD', fun q hq => hs' q (hp.mem_iff.2 hq)⟩

theorem first_unique (hE : Elevatable per P ps X) {i k i' k' : Nat} {C C' : Cell} (h : First ps i k C) (h' : First ps i' k' C')
    (hp : (spanOf C' k').Perm (spanOf C k)) : i = i' ∧ k = k' := by
  have e : i = i' := Nat.le_antisymm
    (h.2 i' C' h'.1.1 fun q hq => (hE.span_mem h'.1).2 q (hp.mem_iff.2 hq))
    (h'.2 i C h.1.1 fun q hq => (hE.span_mem h.1).2 q (hp.mem_iff.1 hq))
  subst e
  have := h.1.unique h'.1
  subst this
  exact ⟨rfl, hE.span_inj h.1 h'.1 hp⟩

theorem dist2_eq (a b : V3) : sqrDist a b = Per.dist2 a b := by
  simp [sqrDist, Per.dist2, dotProduct, Fin.sum_univ_three]
  ring

end DNDSR.Elev
