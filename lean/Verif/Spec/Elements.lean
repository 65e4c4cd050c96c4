import Verif.Model.Elements

/-!
# Specification for C48, C51, C54: what element tables have to satisfy
-/

namespace DNDSR.Elem

/-- local node numbers -/
def locals (t : ElemType) : List Nat := List.range (numNodes t).toNat

def okOr {α : Type} : Res (List α) → List α
  | .ok l => l
  | _ => []

/-- local nodes of face `f` -/
def fnodes (t : ElemType) (f : Nat) : List Nat := okOr (extractFaceNodes t f (locals t))

/-- the corners of face `f`, in the order in which the face lists them -/
def loop (t : ElemType) (f : Nat) : List Nat := (fnodes t f).take (numVertices (faceType t f)).toNat

def faces (t : ElemType) : List Nat := List.range (numFaces t).toNat

/-- the directed edges of a closed loop -/
def edgesOf (l : List Nat) : List (Nat × Nat) := l.zip (l.drop 1 ++ l.take 1)

/-- all directed edges of all faces -/
def faceEdges (t : ElemType) : List (Nat × Nat) := (faces t).flatMap (fun f => edgesOf (loop t f))

/-! ### geometry of the parametric element, coordinates doubled -/

abbrev V3 := Int × Int × Int
def sub (a b : V3) : V3 := (a.1 - b.1, a.2.1 - b.2.1, a.2.2 - b.2.2)
def add (a b : V3) : V3 := (a.1 + b.1, a.2.1 + b.2.1, a.2.2 + b.2.2)
def smul (k : Int) (a : V3) : V3 := (k * a.1, k * a.2.1, k * a.2.2)
def sum (l : List V3) : V3 := l.foldr add (0, 0, 0)
def cross (a b : V3) : V3 :=
  (a.2.1 * b.2.2 - a.2.2 * b.2.1, a.2.2 * b.1 - a.1 * b.2.2, a.1 * b.2.1 - a.2.1 * b.1)
def dot (a b : V3) : Int := a.1 * b.1 + a.2.1 * b.2.1 + a.2.2 * b.2.2

/-- parametric point of a node (doubled) -/
def pt (t : ElemType) (k : Nat) : V3 := ((stdCoord2 t)[k]?).getD (0, 0, 0)

/-- the centroid of the corners, times the number of corners -/
def centre (t : ElemType) : V3 := sum ((List.range (numVertices t).toNat).map (pt t))

/-- normal of a face: of the corner triangle in three dimensions, the edge turned clockwise in two -/
def normal (t : ElemType) (f : Nat) : V3 :=
  match loop t f with
  | [a, b] => let d := sub (pt t b) (pt t a); (d.2.1, -d.1, 0)
  | a :: b :: c :: _ => cross (sub (pt t b) (pt t a)) (sub (pt t c) (pt t a))
  | _ => (0, 0, 0)

/-- The normal of each face points away from the centroid. -/
def Outward (t : ElemType) (f : Nat) : Prop :=
  0 < dot (normal t f) (sub (smul (numVertices t) (pt t ((loop t f)[0]?.getD 0))) (centre t))

/-- local nodes spanning the added node `i` of an element of order one -/
def span (t : ElemType) (i : Nat) : List Nat := okOr (extractElevSpan t i (locals t))

/-- local nodes of part `i` of a bisected element -/
def part (t : ElemType) (variant i : Nat) : List Nat := okOr (extractBisect t i variant (locals t))

def parts (t : ElemType) (variant : Nat) : List (ElemType × List Nat) :=
  (List.range (bisectNum t).toNat).map (fun (i : Nat) => (bisectElem t i, part t variant i))

def at_ (l : List Nat) (k : Nat) : Nat := l[k]?.getD 0

/-- rotate a loop until its least entry comes first -/
def canon (l : List Nat) : List Nat :=
  match l.min? with
  | some m => let i := l.findIdx (· == m); l.drop i ++ l.take i
  | none => []

/-- the oriented faces of the parts, as loops of local nodes of the bisected element -/
def partFaces (t : ElemType) (variant : Nat) : List (List Nat) :=
  (parts t variant).flatMap (fun p => (faces p.1).map (fun f =>
    let l := (loop p.1 f).map (at_ p.2)
    if l.length = 2 then l else canon l))

/-- the oriented faces of the boundary, each bisected by itself -/
def boundaryParts (t : ElemType) : List (List Nat) :=
  (faces t).flatMap (fun (f : Nat) => (parts (faceType t f) 0).map (fun p =>
    let l := p.2.map (at_ (fnodes t f))
    if l.length = 2 then l else canon l))

/-- the loop traversed backwards -/
def rev (l : List Nat) : List Nat := if l.length = 2 then l.reverse else canon l.reverse

/-- The faces of the parts either occur in pairs of opposite orientation or are parts of the boundary faces, each of
which occurs. -/
def Conforming (t : ElemType) (variant : Nat) : Prop :=
  (partFaces t variant).Nodup ∧
  (∀ s ∈ partFaces t variant, (rev s ∈ partFaces t variant ∧ s ∉ boundaryParts t) ∨
    (rev s ∉ partFaces t variant ∧ s ∈ boundaryParts t)) ∧
  (∀ s ∈ boundaryParts t, s ∈ partFaces t variant)

/-- six times the (doubled) volume of a polyhedron given by the oriented faces, or twice the area of a polygon -/
def measure (e : ElemType) (p : List V3) : Int :=
  if dim e = 3 then
    ((faces e).map (fun f =>
      let q := (loop e f).map (fun k => p[k]?.getD (0, 0, 0))
      match q with
      | a :: rest => ((rest.zip (rest.drop 1)).map (fun bc => dot a (cross bc.1 bc.2))).sum
      | [] => 0)).sum
  else if dim e = 2 then
    ((faces e).map (fun f =>
      match (loop e f).map (fun k => p[k]?.getD (0, 0, 0)) with
      | [a, b] => a.1 * b.2.1 - b.1 * a.2.1
      | _ => 0)).sum
  else match p with
    | [a, b] => b.1 - a.1
    | _ => 0

/-- measure of the corners of the whole element -/
def wholeMeasure (t : ElemType) : Int :=
  measure (elemO1 (paramSpace t)) ((List.range (numVertices t).toNat).map (pt t))

/-- second order elements -/
def second (t : ElemType) : Bool := order t = 2

end DNDSR.Elem
