import Verif.Proof.ShapeNorm
import Verif.Spec.ShapeFunc
import Mathlib.Data.Rat.Cast.Order

/-!
# The tables of shape functions, checked entry by entry

Every check below is an identity between two explicit fractions: the kernel computes both normal forms. The number of
entries is finite and all of them are checked; the points are handled by the theorems of `Verif.Proof.ShapeNorm`.
-/

namespace DNDSR.Shape

open DNDSR.Elem

def isPyr (t : ElemType) : Bool := t == .pyramid5 || t == .pyramid14

/-- Only the pyramids have divisors. -/
def fine (t : ElemType) (f : Fr) : Bool := isPyr t || f.k == 0

def entryCheck (t : ElemType) (k r j : Nat) (l : List (Fin 3)) : Bool :=
  match Fr.norm (entry t 0 0 j), Fr.norm (entry t k r j) with
  | some f, some g => Fr.eq (Fr.diffL l f) g && (fine t f && fine t g)
  | _, _ => false

def tabCheck (t : ElemType) (k : Nat) : Bool :=
  (List.range (nodes t)).all fun j => (List.range (rowEnd (dim t) k - rowStart (dim t) k)).all fun r =>
    entryCheck t k r j ((rowsOf (dim t)).getD (rowStart (dim t) k + r) [])

def firstCheck (t : ElemType) : Bool :=
  (List.range (nodes t)).all fun j => [0, 1, 2].all fun r : Fin 3 => entryCheck t 1 r j [r]

def sumFr : List (Int × Ex) → Option Fr
  | [] => some ⟨P.const 0, 1, 0⟩
  | (c, e) :: l => match Fr.norm e, sumFr l with
    | some f, some g => some (Fr.add (Fr.mul ⟨P.const c, 1, 0⟩ f) g)
    | _, _ => none

/-- The doubled coordinates of the node. -/
def coord2 (t : ElemType) (j : Nat) : Fin 3 → Int
  | 0 => ((stdCoord2 t).getD j (0, 0, 0)).1
  | 1 => ((stdCoord2 t).getD j (0, 0, 0)).2.1
  | 2 => ((stdCoord2 t).getD j (0, 0, 0)).2.2

def repCheck (t : ElemType) (a b c : Nat) : Bool :=
  match sumFr ((List.range (nodes t)).map fun j => (coord2 t j 0 ^ a * coord2 t j 1 ^ b * coord2 t j 2 ^ c, entry t 0 0 j)) with
  | some f => Fr.eq f ⟨[(a, b, c, 2 ^ (a + b + c))], 1, 0⟩ && fine t f
  | none => false

def repAll (t : ElemType) (n : Nat) : Bool :=
  (List.range (n + 1)).all fun a => (List.range (n + 1 - a)).all fun b => (List.range (n + 1 - a - b)).all fun c =>
    (decide (dim t ≤ 1) && b != 0) || (decide (dim t ≤ 2) && c != 0) || repCheck t a b c

namespace P

/-- The value at a rational point. -/
def evQ (x y z : ℚ) : P → ℚ
  | [] => 0
  | m :: p => m.2.2.2 * (x ^ m.1 * y ^ m.2.1 * z ^ m.2.2.1) + evQ x y z p

theorem evQ_cast (x y z : ℚ) (p : P) : ((evQ x y z p : ℚ) : ℝ) = ev x y z p := by
  induction p with
  | nil => simp [evQ, ev]
  | cons m p ih => simp [evQ, ev, tev, ih]

/-- Substitution of fractions. -/
def substFr (a b c : Fr) : P → Fr
  | [] => ⟨const 0, 1, 0⟩
  | m :: p => Fr.add (Fr.mul ⟨const m.2.2.2, 1, 0⟩ (Fr.mul (Fr.mul (Fr.pow a m.1) (Fr.pow b m.2.1)) (Fr.pow c m.2.2.1))) (substFr a b c p)

end P

def half (n : Int) : ℚ := n / 2

def kronCheck (t : ElemType) (i j : Nat) : Bool :=
  match Fr.norm (entry t 0 0 j) with
  | some f => decide (P.evQ (half (coord2 t i 0)) (half (coord2 t i 1)) (half (coord2 t i 2)) f.num
      = (if i = j then 1 else 0) * (f.den * (half (coord2 t i 2) - 1) ^ f.k)) && fine t f
  | none => false

def kronAll (t : ElemType) : Bool :=
  (List.range (nodes t)).all fun i => (isPyr t && coord2 t i 2 == 2) || (List.range (nodes t)).all fun j => kronCheck t i j

/-- At the shifted apex. -/
def apexCheck (t : ElemType) (j : Nat) : Bool :=
  match Fr.norm (entry t 0 0 j) with
  | some f => decide (|P.evQ 0 0 (1 - 1 / 10 ^ 15) f.num - (if j = 4 then 1 else 0) * ((f.den : ℚ) * ((-1 : ℚ) / 10 ^ 15) ^ f.k)|
      ≤ 3 / 10 ^ 15 * |(f.den : ℚ) * ((-1 : ℚ) / 10 ^ 15) ^ f.k|)
  | none => false

/-- The coordinate `a` of the point of a face, in its parameters. -/
def faceCoord (t : ElemType) (i : Nat) (a : Fin 3) : Option Fr :=
  match sumFr ((List.range (nodes (faceType t i))).map fun k => (coord2 t ((faceNodes t i).getD k 0) a, entry (faceType t i) 0 0 k)) with
  | some f => some ⟨f.num, f.den * 2, f.k⟩
  | none => none

/-- What the `j`-th shape function has to be on the face. -/
def faceWant (t : ElemType) (i j : Nat) : Ex :=
  if j ∈ faceNodes t i then entry (faceType t i) 0 0 ((faceNodes t i).idxOf j) else .lit 0

def faceCheck (t : ElemType) (i : Nat) : Bool :=
  match faceCoord t i 0, faceCoord t i 1, faceCoord t i 2 with
  | some a, some b, some c => (a.k == 0 && b.k == 0 && c.k == 0) && (List.range (nodes t)).all fun j =>
    match Fr.norm (entry t 0 0 j), Fr.norm (faceWant t i j) with
    | some f, some g => (fine t f && g.k == 0) &&
      Fr.eq (P.substFr a b c f.num) (Fr.mul g (Fr.mul ⟨P.const f.den, 1, 0⟩ (Fr.pow (Fr.add c ⟨P.const (-1), 1, 0⟩) f.k)))
    | _, _ => false
  | _, _, _ => false

theorem line2_tab : ∀ k < 4, tabCheck .line2 k = true := by decide +kernel
theorem line3_tab : ∀ k < 4, tabCheck .line3 k = true := by decide +kernel
theorem tri3_tab : ∀ k < 4, tabCheck .tri3 k = true := by decide +kernel
theorem tri6_tab : ∀ k < 4, tabCheck .tri6 k = true := by decide +kernel
theorem quad4_tab : ∀ k < 4, tabCheck .quad4 k = true := by decide +kernel
theorem quad9_tab : ∀ k < 4, tabCheck .quad9 k = true := by decide +kernel
theorem tet4_tab : ∀ k < 4, tabCheck .tet4 k = true := by decide +kernel
theorem tet10_tab : ∀ k < 4, tabCheck .tet10 k = true := by decide +kernel
theorem hex8_tab : ∀ k < 4, tabCheck .hex8 k = true := by decide +kernel
theorem hex27_tab : ∀ k < 4, tabCheck .hex27 k = true := by decide +kernel
theorem prism6_tab : ∀ k < 4, tabCheck .prism6 k = true := by decide +kernel
theorem prism18_tab : ∀ k < 4, tabCheck .prism18 k = true := by decide +kernel
theorem pyramid5_tab : ∀ k < 4, tabCheck .pyramid5 k = true := by decide +kernel
theorem pyramid14_tab : ∀ k < 4, tabCheck .pyramid14 k = true := by decide +kernel

theorem line2_first : firstCheck .line2 = true := by decide +kernel
theorem line3_first : firstCheck .line3 = true := by decide +kernel
theorem tri3_first : firstCheck .tri3 = true := by decide +kernel
theorem tri6_first : firstCheck .tri6 = true := by decide +kernel
theorem quad4_first : firstCheck .quad4 = true := by decide +kernel
theorem quad9_first : firstCheck .quad9 = true := by decide +kernel
theorem tet4_first : firstCheck .tet4 = true := by decide +kernel
theorem tet10_first : firstCheck .tet10 = true := by decide +kernel
theorem hex8_first : firstCheck .hex8 = true := by decide +kernel
theorem hex27_first : firstCheck .hex27 = true := by decide +kernel
theorem prism6_first : firstCheck .prism6 = true := by decide +kernel
theorem prism18_first : firstCheck .prism18 = true := by decide +kernel
theorem pyramid5_first : firstCheck .pyramid5 = true := by decide +kernel
theorem pyramid14_first : firstCheck .pyramid14 = true := by decide +kernel

theorem line2_rep : repAll .line2 1 = true := by decide +kernel
theorem line3_rep : repAll .line3 2 = true := by decide +kernel
theorem tri3_rep : repAll .tri3 1 = true := by decide +kernel
theorem tri6_rep : repAll .tri6 2 = true := by decide +kernel
theorem quad4_rep : repAll .quad4 1 = true := by decide +kernel
theorem quad9_rep : repAll .quad9 2 = true := by decide +kernel
theorem tet4_rep : repAll .tet4 1 = true := by decide +kernel
theorem tet10_rep : repAll .tet10 2 = true := by decide +kernel
theorem hex8_rep : repAll .hex8 1 = true := by decide +kernel
theorem hex27_rep : repAll .hex27 2 = true := by decide +kernel
theorem prism6_rep : repAll .prism6 1 = true := by decide +kernel
theorem prism18_rep : repAll .prism18 2 = true := by decide +kernel
theorem pyramid5_rep : repAll .pyramid5 1 = true := by decide +kernel
theorem pyramid14_rep : repAll .pyramid14 1 = true := by decide +kernel

theorem line2_kron : kronAll .line2 = true := by decide +kernel
theorem line3_kron : kronAll .line3 = true := by decide +kernel
theorem tri3_kron : kronAll .tri3 = true := by decide +kernel
theorem tri6_kron : kronAll .tri6 = true := by decide +kernel
theorem quad4_kron : kronAll .quad4 = true := by decide +kernel
theorem quad9_kron : kronAll .quad9 = true := by decide +kernel
theorem tet4_kron : kronAll .tet4 = true := by decide +kernel
theorem tet10_kron : kronAll .tet10 = true := by decide +kernel
theorem hex8_kron : kronAll .hex8 = true := by decide +kernel
theorem hex27_kron : kronAll .hex27 = true := by decide +kernel
theorem prism6_kron : kronAll .prism6 = true := by decide +kernel
theorem prism18_kron : kronAll .prism18 = true := by decide +kernel
theorem pyramid5_kron : kronAll .pyramid5 = true := by decide +kernel
theorem pyramid14_kron : kronAll .pyramid14 = true := by decide +kernel

theorem pyramid5_apex : ∀ j < 5, apexCheck .pyramid5 j = true := by decide +kernel
theorem pyramid14_apex : ∀ j < 14, apexCheck .pyramid14 j = true := by decide +kernel

theorem tri3_face : ∀ i < 3, faceCheck .tri3 i = true := by decide +kernel
theorem tri6_face : ∀ i < 3, faceCheck .tri6 i = true := by decide +kernel
theorem quad4_face : ∀ i < 4, faceCheck .quad4 i = true := by decide +kernel
theorem quad9_face : ∀ i < 4, faceCheck .quad9 i = true := by decide +kernel
theorem tet4_face : ∀ i < 4, faceCheck .tet4 i = true := by decide +kernel
theorem tet10_face : ∀ i < 4, faceCheck .tet10 i = true := by decide +kernel
theorem hex8_face : ∀ i < 6, faceCheck .hex8 i = true := by decide +kernel
theorem hex27_face : ∀ i < 6, faceCheck .hex27 i = true := by decide +kernel
theorem prism6_face : ∀ i < 5, faceCheck .prism6 i = true := by decide +kernel
theorem prism18_face : ∀ i < 5, faceCheck .prism18 i = true := by decide +kernel
theorem pyramid5_face : ∀ i < 5, faceCheck .pyramid5 i = true := by decide +kernel
theorem pyramid14_face : ∀ i < 1, faceCheck .pyramid14 i = true := by decide +kernel

theorem tab_ok (t : ElemType) (ht : t ≠ .unknown) : ∀ k < 4, tabCheck t k = true := by
  cases t with
  | unknown => exact absurd rfl ht
  | line2 => exact line2_tab
  | line3 => exact line3_tab
  | tri3 => exact tri3_tab
  | tri6 => exact tri6_tab
  | quad4 => exact quad4_tab
  | quad9 => exact quad9_tab
  | tet4 => exact tet4_tab
  | tet10 => exact tet10_tab
  | hex8 => exact hex8_tab
  | hex27 => exact hex27_tab
  | prism6 => exact prism6_tab
  | prism18 => exact prism18_tab
  | pyramid5 => exact pyramid5_tab
  | pyramid14 => exact pyramid14_tab

theorem first_ok (t : ElemType) (ht : t ≠ .unknown) : firstCheck t = true := by
  cases t with
  | unknown => exact absurd rfl ht
  | line2 => exact line2_first
  | line3 => exact line3_first
  | tri3 => exact tri3_first
  | tri6 => exact tri6_first
  | quad4 => exact quad4_first
  | quad9 => exact quad9_first
  | tet4 => exact tet4_first
  | tet10 => exact tet10_first
  | hex8 => exact hex8_first
  | hex27 => exact hex27_first
  | prism6 => exact prism6_first
  | prism18 => exact prism18_first
  | pyramid5 => exact pyramid5_first
  | pyramid14 => exact pyramid14_first

theorem kron_ok (t : ElemType) (ht : t ≠ .unknown) : kronAll t = true := by
  cases t with
  | unknown => exact absurd rfl ht
  | line2 => exact line2_kron
  | line3 => exact line3_kron
  | tri3 => exact tri3_kron
  | tri6 => exact tri6_kron
  | quad4 => exact quad4_kron
  | quad9 => exact quad9_kron
  | tet4 => exact tet4_kron
  | tet10 => exact tet10_kron
  | hex8 => exact hex8_kron
  | hex27 => exact hex27_kron
  | prism6 => exact prism6_kron
  | prism18 => exact prism18_kron
  | pyramid5 => exact pyramid5_kron
  | pyramid14 => exact pyramid14_kron

/-- The degree up to which the tables reproduce polynomials. -/
def degree (t : ElemType) : Nat := if t = .pyramid14 then 1 else (order t).toNat

theorem rep_ok (t : ElemType) (ht : t ≠ .unknown) : repAll t (degree t) = true := by
  cases t with
  | unknown => exact absurd rfl ht
  | line2 => exact line2_rep
  | line3 => exact line3_rep
  | tri3 => exact tri3_rep
  | tri6 => exact tri6_rep
  | quad4 => exact quad4_rep
  | quad9 => exact quad9_rep
  | tet4 => exact tet4_rep
  | tet10 => exact tet10_rep
  | hex8 => exact hex8_rep
  | hex27 => exact hex27_rep
  | prism6 => exact prism6_rep
  | prism18 => exact prism18_rep
  | pyramid5 => exact pyramid5_rep
  | pyramid14 => exact pyramid14_rep

theorem face_ok (t : ElemType) (ht : t ≠ .unknown) (i : Nat) (hi : (i : Int) < numFaces t) (h : t = .pyramid14 → i = 0) : faceCheck t i = true := by
  cases t with
  | unknown => exact absurd rfl ht
  | line2 => simp [numFaces, dimOrder] at hi; omega
  | line3 => simp [numFaces, dimOrder] at hi; omega
  | tri3 => exact tri3_face i (by simp [numFaces, dimOrder] at hi; omega)
  | tri6 => exact tri6_face i (by simp [numFaces, dimOrder] at hi; omega)
  | quad4 => exact quad4_face i (by simp [numFaces, dimOrder] at hi; omega)
  | quad9 => exact quad9_face i (by simp [numFaces, dimOrder] at hi; omega)
  | tet4 => exact tet4_face i (by simp [numFaces, dimOrder] at hi; omega)
  | tet10 => exact tet10_face i (by simp [numFaces, dimOrder] at hi; omega)
  | hex8 => exact hex8_face i (by simp [numFaces, dimOrder] at hi; omega)
  | hex27 => exact hex27_face i (by simp [numFaces, dimOrder] at hi; omega)
  | prism6 => exact prism6_face i (by simp [numFaces, dimOrder] at hi; omega)
  | prism18 => exact prism18_face i (by simp [numFaces, dimOrder] at hi; omega)
  | pyramid5 => exact pyramid5_face i (by simp [numFaces, dimOrder] at hi; omega)
  | pyramid14 => exact pyramid14_face i (by rw [h rfl]; decide)

end DNDSR.Shape
