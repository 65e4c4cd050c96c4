import Verif.Spec.Bisect
import Verif.Props.Elements

/-!
# The tables of parts: which faces of parts meet, inside an element and across faces
-/

namespace DNDSR.Bisect

open DNDSR.Elem hiding V3

/-- face `f` of part `p`, in local nodes of the element -/
def sideOf (t : ElemType) (v p f : Nat) : List Nat := (fnodes (bisectElem t p) f).map (at_ (part t v p))

/-- part `q` of face `f` -/
def bpart (t : ElemType) (f q : Nat) : List Nat := (part (faceType t f) 0 q).map (at_ (fnodes t f))

/-- the list read in one of the ways -/
def Reads (ways : List (List Nat)) (a b : List Nat) : Prop := ∃ ρ ∈ ways, b = ρ.map (at_ a)

instance (ways : List (List Nat)) (a b : List Nat) : Decidable (Reads ways a b) := by unfold Reads; infer_instance

/-- the faces of the parts of an element either meet another one or are parts of faces -/
theorem sides_meet (t : ElemType) (ht : order t = 2) (hd : 2 ≤ dim t) : ∀ v ∈ List.range (bisectVariants t).toNat,
    ∀ p ∈ List.range (bisectNum t).toNat, ∀ f ∈ List.range (numFaces (bisectElem t p)).toNat,
      (∃ p' ∈ List.range (bisectNum t).toNat, ∃ f' ∈ List.range (numFaces (bisectElem t p')).toNat, (p', f') ≠ (p, f) ∧
        faceType (bisectElem t p) f = faceType (bisectElem t p') f' ∧
        Reads (revs (faceType (bisectElem t p) f)) (sideOf t v p f) (sideOf t v p' f')) ∨
      (∃ g ∈ List.range (numFaces t).toNat, ∃ q ∈ List.range (bisectNum (faceType t g)).toNat,
        bisectElem (faceType t g) q = faceType (bisectElem t p) f ∧
        Reads (rots (faceType (bisectElem t p) f)) (sideOf t v p f) (bpart t g q)) := by
  cases t <;> first | exact absurd ht (by decide) | exact absurd hd (by decide) | decide +kernel

/-- every part of a face is a face of a part -/
theorem parts_sides (t : ElemType) (ht : order t = 2) (hd : 2 ≤ dim t) : ∀ v ∈ List.range (bisectVariants t).toNat,
    ∀ g ∈ List.range (numFaces t).toNat, ∀ q ∈ List.range (bisectNum (faceType t g)).toNat,
      ∃ p ∈ List.range (bisectNum t).toNat, ∃ f ∈ List.range (numFaces (bisectElem t p)).toNat,
        bisectElem (faceType t g) q = faceType (bisectElem t p) f ∧
        Reads (rots (faceType (bisectElem t p) f)) (sideOf t v p f) (bpart t g q) := by
  cases t <;> first | exact absurd ht (by decide) | exact absurd hd (by decide) | decide +kernel

/-- a face of a part lies on at most one face -/
theorem side_unique (t : ElemType) (ht : order t = 2) (hd : 2 ≤ dim t) : ∀ v ∈ List.range (bisectVariants t).toNat,
    ∀ p ∈ List.range (bisectNum t).toNat, ∀ f ∈ List.range (numFaces (bisectElem t p)).toNat,
    ∀ g ∈ List.range (numFaces t).toNat, ∀ g' ∈ List.range (numFaces t).toNat,
      (∀ a ∈ sideOf t v p f, a ∈ fnodes t g) → (∀ a ∈ sideOf t v p f, a ∈ fnodes t g') → g = g' := by
  cases t <;> first | exact absurd ht (by decide) | exact absurd hd (by decide) | decide +kernel

/-- a face type -/
def FaceLike (t : ElemType) : Prop := t = .line3 ∨ t = .tri6 ∨ t = .quad9

def FaceLike1 (t : ElemType) : Prop := t = .line2 ∨ t = .tri3 ∨ t = .quad4

theorem faceLike (t : ElemType) (ht : order t = 2) (hd : 2 ≤ dim t) : ∀ g ∈ List.range (numFaces t).toNat, FaceLike (faceType t g) := by
  unfold FaceLike
  cases t <;> first | exact absurd ht (by decide) | exact absurd hd (by decide) | decide +kernel

theorem faceLike1 (t : ElemType) (ht : FaceLike t) (q : Nat) : FaceLike1 (bisectElem t q) := by
  unfold FaceLike1
  rcases ht with rfl | rfl | rfl <;> simp [bisectElem]

theorem childFace (t : ElemType) (ht : order t = 2) (hd : 2 ≤ dim t) : ∀ p ∈ List.range (bisectNum t).toNat,
    ∀ f ∈ List.range (numFaces (bisectElem t p)).toNat, FaceLike1 (faceType (bisectElem t p) f) := by
  unfold FaceLike1
  cases t <;> first | exact absurd ht (by decide) | exact absurd hd (by decide) | decide +kernel

/-- parts of a face read in the opposite sense are its parts read in the opposite sense -/
theorem parts_reversed (t : ElemType) (ht : FaceLike t) : ∀ σ ∈ revs t, ∀ q ∈ List.range (bisectNum t).toNat,
    ∃ q' ∈ List.range (bisectNum t).toNat, bisectElem t q' = bisectElem t q ∧
      Reads (revs (bisectElem t q)) (part t 0 q) ((part t 0 q').map (at_ σ)) := by
  rcases ht with rfl | rfl | rfl <;> decide +kernel

theorem parts_turned (t : ElemType) (ht : FaceLike t) : ∀ ρ ∈ rots t, ∀ q ∈ List.range (bisectNum t).toNat,
    ∃ q' ∈ List.range (bisectNum t).toNat, bisectElem t q' = bisectElem t q ∧
      Reads (rots (bisectElem t q)) (part t 0 q) ((part t 0 q').map (at_ ρ)) := by
  rcases ht with rfl | rfl | rfl <;> decide +kernel

/-- the other way round -/
theorem parts_turned' (t : ElemType) (ht : FaceLike t) : ∀ ρ ∈ rots t, ∀ q' ∈ List.range (bisectNum t).toNat,
    ∃ q ∈ List.range (bisectNum t).toNat, bisectElem t q' = bisectElem t q ∧
      Reads (rots (bisectElem t q)) (part t 0 q) ((part t 0 q').map (at_ ρ)) := by
  rcases ht with rfl | rfl | rfl <;> decide +kernel

theorem rots_group (t : ElemType) (ht : FaceLike1 t) :
    (∀ ρ ∈ rots t, ∃ ρ' ∈ rots t, ρ'.map (at_ ρ) = List.range (numNodes t).toNat) ∧
    (∀ ρ ∈ rots t, ∀ ρ' ∈ rots t, ρ'.map (at_ ρ) ∈ rots t) ∧
    (∀ ρ ∈ rots t, ∀ σ ∈ revs t, σ.map (at_ ρ) ∈ revs t ∧ ρ.map (at_ σ) ∈ revs t) ∧
    (∀ ρ ∈ rots t, ρ.length = (numNodes t).toNat ∧ ∀ k ∈ ρ, k < (numNodes t).toNat) ∧
    (∀ ρ ∈ revs t, ρ.length = (numNodes t).toNat ∧ ∀ k ∈ ρ, k < (numNodes t).toNat) := by
  rcases ht with rfl | rfl | rfl <;> decide +kernel

theorem ways_lengths (t : ElemType) (ht : FaceLike t) :
    (∀ ρ ∈ rots t, ρ.length = (numNodes t).toNat ∧ ∀ k ∈ ρ, k < (numNodes t).toNat) ∧
    (∀ ρ ∈ revs t, ρ.length = (numNodes t).toNat ∧ ∀ k ∈ ρ, k < (numNodes t).toNat) ∧
    (∀ q ∈ List.range (bisectNum t).toNat, (part t 0 q).length = (numNodes (bisectElem t q)).toNat ∧
      ∀ k ∈ part t 0 q, k < (numNodes t).toNat) := by
  rcases ht with rfl | rfl | rfl <;> decide +kernel

theorem face_lengths (t : ElemType) (ht : order t = 2) : ∀ g ∈ List.range (numFaces t).toNat,
    (fnodes t g).length = (numNodes (faceType t g)).toNat ∧ ∀ k ∈ fnodes t g, k < (numNodes t).toNat := by
  cases t <;> first | exact absurd ht (by decide) | decide +kernel

theorem face_lengths1 (t : ElemType) (ht : order t = 1) : ∀ g ∈ List.range (numFaces t).toNat,
    (fnodes t g).length = (numNodes (faceType t g)).toNat ∧ ∀ k ∈ fnodes t g, k < (numNodes t).toNat := by
  cases t <;> first | exact absurd ht (by decide) | decide +kernel

theorem part_lengths (t : ElemType) (ht : order t = 2) : ∀ v ∈ List.range (bisectVariants t).toNat,
    ∀ p ∈ List.range (bisectNum t).toNat, (part t v p).length = (numNodes (bisectElem t p)).toNat ∧ order (bisectElem t p) = 1 ∧
      ∀ k ∈ part t v p, k < (numNodes t).toNat := by
  cases t <;> first | exact absurd ht (by decide) | decide +kernel

/-- the tables of a tetrahedron or a pyramid cut along different diagonals: both ends belong to a part exactly in the table of the diagonal -/
theorem diagonal_table (t : ElemType) (ht : t = .tet10 ∨ t = .pyramid14) : ∀ v ∈ List.range (bisectVariants t).toNat,
    ∀ w ∈ List.range (bisectVariants t).toNat,
      ((∃ p ∈ List.range (bisectNum t).toNat, (diagonal t w).1 ∈ part t v p ∧ (diagonal t w).2 ∈ part t v p) ↔ v = w) := by
  rcases ht with rfl | rfl <;> decide +kernel

end DNDSR.Bisect
