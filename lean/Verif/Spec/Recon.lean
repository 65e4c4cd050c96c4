import Verif.Model.Recon
import Verif.Spec.BaseValue
import Verif.Spec.Periodic

/-!
# Reconstruction as least squares over the faces of a cell

The reconstruction of a cell is a polynomial with the cell's mean value. It is to differ as little as possible, on the faces, from the
polynomials of the neighbours and from the boundary values: in value and in all derivatives.
-/

namespace DNDSR.Rec

open Matrix Jet

variable {d : Nat}

/-- The full contraction of the derivatives of order `k` of two functions at a point. -/
noncomputable def contract : Nat → ((Fin d → ℝ) → ℝ) → ((Fin d → ℝ) → ℝ) → (Fin d → ℝ) → ℝ
  | 0, f, g, p => f p * g p
  | k + 1, f, g, p => ∑ i, contract k (pd i f) (pd i g) p

/-- The weighted squares of the derivatives up to order `m` at a point; `L` is a length. -/
noncomputable def penalty (m : Nat) (w : Nat → ℝ) (L : ℝ) (f : (Fin d → ℝ) → ℝ) (p : Fin d → ℝ) : ℝ :=
  ∑ k ∈ Finset.range (m + 1), w k ^ 2 * L ^ (2 * k) * contract k f f p

/-- How the first coordinates are seen as points of space, and the functions the coefficients multiply: `base C j` for the coefficient `j`. -/
structure Frame (d : Nat) where
  proj : Per.V3 → Fin d → ℝ
  lift : (Fin d → ℝ) → Per.V3
  block : Per.M3 → Matrix (Fin d) (Fin d) ℝ
  base : CellBase → Nat → (Fin d → ℝ) → ℝ
  /-- the point is in the plane of the cell -/
  inPlane : CellBase → Per.V3 → Prop
  /-- the rotation keeps the plane -/
  keeps : Per.M3 → Prop

/-- The plane. -/
noncomputable def frame2 : Frame 2 where
  proj := fun p => ![p 0, p 1]
  lift := fun y => ![y 0, y 1, 0]
  block := Per.block
  base := fun C j y => monomial (fun i => simpleScale2 C i.castSucc) (rows2.getD (j + 1) []) (C.local2 y) - C.moment (j + 1)
  inPlane := fun C p => p 2 = C.cent 2
  keeps := fun R => ∀ a : Fin 2, R 2 a.castSucc = 0 ∧ R a.castSucc 2 = 0

/-- Space. -/
noncomputable def frame3 : Frame 3 where
  proj := id
  lift := id
  block := id
  base := fun C j y => monomial (simpleScale3 C) (rows3.getD (j + 1) []) (C.local3 y) - C.moment (j + 1)
  inPlane := fun _ _ => True
  keeps := fun _ => True

/-- The penalty on a face: with the length of the face, or in coordinates along and across the face. -/
noncomputable def facePenalty (S : Space) (Fr : Frame d) (F : FaceFn) (m : Nat) (f : (Fin d → ℝ) → ℝ) (p : Fin d → ℝ) : ℝ :=
  if F.anisotropic then penalty m F.weight 1 (fun y => f (affine (Fr.block (coordTrans S F)) p y)) 0
  else penalty m F.weight (faceL S F) f p

/-- The place, in the coordinates of the cell on the other side, of a point in the coordinates of the cell on this side: through a
periodic boundary they differ. -/
noncomputable def toOther (W : Wrap) (id : Int) (if2c : Bool) (p : Per.V3) : Per.V3 :=
  let move : Res Per.V3 :=
    if W.isPeriodic = false then .ok p
    else if (id = -1 ∨ id = -2 ∨ id = -3) then if if2c then Per.transCoordBack W.P p id else Per.transCoord W.P p id
    else if (id = -4 ∨ id = -5 ∨ id = -6) then if if2c then Per.transCoord W.P p id else Per.transCoordBack W.P p id
    else .ok p
  match move with
  | .ok q => q
  | _ => p

/-- The place of a point of the face in the coordinates of the cell on this side. -/
noncomputable def onSide (W : Wrap) (id : Int) (if2c : Bool) (p : Per.V3) : Per.V3 :=
  if if2c then toOther W id false p else p

/-- What is on the other side of a face: the coefficients and the mean value of a cell, or boundary values at the points. -/
inductive Across (N V : Nat)
  | cell (x : Matrix (Fin N) (Fin V) ℝ) (u : Fin V → ℝ)
  | bnd (f : QPoint → (Fin V → ℝ) → (Fin V → ℝ) → Fin V → ℝ)

/-- The polynomial of a cell. -/
noncomputable def poly {N : Nat} (Fr : Frame d) (C : CellBase) (x : Fin N → ℝ) (u : ℝ) (y : Fin d → ℝ) : ℝ := u + ∑ j : Fin N, x j * Fr.base C j y

variable {N V : Nat}

/-- The value of the cell at a point of a face. -/
noncomputable def inner (W : Wrap) (Fr : Frame d) (C : CellBase) (s : Side) (x : Matrix (Fin N) (Fin V) ℝ) (u : Fin V → ℝ) (g : QPoint) (v : Fin V) : ℝ :=
  poly Fr C (fun j => x j v) (u v) (Fr.proj (onSide W s.faceID s.if2c g.p))

/-- What the variable `v` of the cell is compared with at a point of a face: the neighbour's polynomial, or the boundary value, where the
boundary condition sees the cell's values `x`. -/
noncomputable def target (W : Wrap) (Fr : Frame d) (C : CellBase) (x : Matrix (Fin N) (Fin V) ℝ) (u : Fin V → ℝ) (s : Side) (a : Across N V)
    (v : Fin V) (g : QPoint) : (Fin d → ℝ) → ℝ :=
  match a, s.other with
  | .cell x' u', some C' => fun y => poly Fr C' (fun j => x' j v) (u' v) (Fr.proj (toOther W s.faceID s.if2c (Fr.lift y)))
  | .bnd f, _ => fun _ => f g (inner W Fr C s x u g) u v
  | _, none => fun _ => 0

/-- The penalty of a polynomial with coefficients `y`, over all faces and points; the targets belong to the values `x`. -/
noncomputable def energy (S : Space) (W : Wrap) (Fr : Frame d) (m : Nat) (C : CellBase) (x : Matrix (Fin N) (Fin V) ℝ) (u : Fin V → ℝ)
    (fs : List (Side × Across N V)) (v : Fin V) (y : Fin N → ℝ) : ℝ :=
  (fs.map fun sa => (sa.1.q.map fun g => g.w * g.det *
    facePenalty S Fr sa.1.F m (fun z => poly Fr C y (u v) z - target W Fr C x u sa.1 sa.2 v g z) (Fr.proj (onSide W sa.1.faceID sa.1.if2c g.p))).sum).sum

/-- A face between two cells has no boundary zone and a known other cell; a face at the boundary has a zone and no other cell. -/
def Fits (s : Side) : Across N V → Prop
  | .cell _ _ => s.faceID ≤ 0 ∧ s.other.isSome = true
  | .bnd _ => 0 < s.faceID ∧ s.other = none

/-- The motion of a periodic zone is rigid and keeps the plane. -/
def Moves (W : Wrap) (Fr : Frame d) (id : Int) : Prop :=
  W.isPeriodic = true → ∀ i, Per.axisOf id = some i → Per.Rigid (W.P.rotation i) ∧ Fr.keeps (W.P.rotation i)

/-- The points of a face are in the plane of the cells on both sides, and a periodic zone moves them rigidly. -/
def Sits (W : Wrap) (Fr : Frame d) (C : CellBase) (s : Side) : Prop :=
  Moves W Fr s.faceID ∧ (∀ g ∈ s.q, Fr.inPlane C (onSide W s.faceID s.if2c g.p)) ∧
    ∀ C', s.other = some C' → ∀ g ∈ s.q, Fr.inPlane C' (onSide W s.faceID (!s.if2c) g.p)

/-- The face sees no difference between the polynomial of the cell and the other side: they are the same function, or they agree at the
points and the face weighs no derivative. -/
def Agrees (W : Wrap) (Fr : Frame d) (m : Nat) (C : CellBase) (x : Matrix (Fin N) (Fin V) ℝ) (u : Fin V → ℝ) (sa : Side × Across N V) : Prop :=
  ∀ g ∈ sa.1.q, ∀ v,
    (∀ y, target W Fr C x u sa.1 sa.2 v g y = poly Fr C (fun j => x j v) (u v) y) ∨
    ((∀ k, 1 ≤ k → k ≤ m → sa.1.F.weight k = 0) ∧
      target W Fr C x u sa.1 sa.2 v g (Fr.proj (onSide W sa.1.faceID sa.1.if2c g.p)) = inner W Fr C sa.1 x u g v)

/-- Only the zero polynomial of mean zero is not seen by the faces. -/
def Sees (S : Space) (W : Wrap) (Fr : Frame d) (m N : Nat) (C : CellBase) (sides : List Side) : Prop :=
  ∀ y : Fin N → ℝ, (∀ s ∈ sides, ∀ g ∈ s.q, 0 < g.w * g.det →
    facePenalty S Fr s.F m (poly Fr C y 0) (Fr.proj (onSide W s.faceID s.if2c g.p)) = 0) → y = 0

/-- The right side of the cell's equation as the iterations compute it: `matrixAAInvB * uRecOther + vectorAInvB * (uOther - u)` for a
neighbour and `AInv * BCC` for a boundary face. -/
noncomputable def pull (S : Space) (W : Wrap) (m : Nat) (C : CellBase) (AInv : Matrix (Fin N) (Fin N) ℝ) (x : Matrix (Fin N) (Fin V) ℝ)
    (u : Fin V → ℝ) (sa : Side × Across N V) (c : Coeff N) : Res (Matrix (Fin N) (Fin V) ℝ) :=
  match sa.2 with
  | .cell x' u' => .ok (c.AInvB * x' + Matrix.vecMulVec c.AInvb (u' - u))
  | .bnd f => do
    let BCC ← boundaryRHS S W m C sa.1 f x u
    .ok (AInv * BCC)

end DNDSR.Rec
