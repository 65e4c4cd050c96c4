import Verif.Model.ShapeFunc

/-!
# Quadrature on the reference elements

The tables of `src/Geom/Quadrature.hpp:47-157` with their decimals taken literally as rational numbers (the rounding of
a decimal to a `double` is not modelled), the choice of the scheme, the points and weights, and the integration loop.
-/

namespace DNDSR.Quad

open DNDSR.Elem

/-- The decimal with the digits `n`, `k` of them after the point. -/
def dec (n : Int) (k : Nat) : ℚ := mkRat n (10 ^ k)

/-- `__GaussLegendre_1`, `src/Geom/Quadrature.hpp:47-49`. -/
def gaussLegendre_1 : List (List ℚ) :=
  [[0],
   [2]]

/-- `__GaussLegendre_2`, `src/Geom/Quadrature.hpp:51-53`. -/
def gaussLegendre_2 : List (List ℚ) :=
  [[dec (-577350269189626) 15, dec 577350269189626 15],
   [1, 1]]

/-- `__GaussLegendre_3`, `src/Geom/Quadrature.hpp:55-57`. -/
def gaussLegendre_3 : List (List ℚ) :=
  [[dec (-774596669241483) 15, 0, dec 774596669241483 15],
   [dec 555555555555555 15, dec 888888888888889 15, dec 555555555555555 15]]

/-- `__GaussLegendre_4`, `src/Geom/Quadrature.hpp:59-61`. -/
def gaussLegendre_4 : List (List ℚ) :=
  [[dec (-861136311594053) 15, dec (-339981043584856) 15, dec 339981043584856 15, dec 861136311594053 15],
   [dec 347854845137454 15, dec 652145154862546 15, dec 652145154862546 15, dec 347854845137454 15]]

/-- `__GaussLegendre_5`, `src/Geom/Quadrature.hpp:63-65`. -/
def gaussLegendre_5 : List (List ℚ) :=
  [[dec (-906179845938664) 15, dec (-538469310105683) 15, 0, dec 538469310105683 15, dec 906179845938664 15],
   [dec 236926885056189 15, dec 478628670499366 15, dec 568888888888889 15, dec 478628670499366 15, dec 236926885056189 15]]

/-- `__GaussJacobi_01A2B0_1`, `src/Geom/Quadrature.hpp:67-69`. -/
def gaussJacobi_01A2B0_1 : List (List ℚ) :=
  [[dec 250000000000000 15],
   [dec 333333333333333 15]]

/-- `__GaussJacobi_01A2B0_2`, `src/Geom/Quadrature.hpp:71-73`. -/
def gaussJacobi_01A2B0_2 : List (List ℚ) :=
  [[dec 122514822655441 15, dec 544151844011225 15],
   [dec 232547451253508 15, dec 100785882079825 15]]

/-- `__GaussJacobi_01A2B0_3`, `src/Geom/Quadrature.hpp:75-77`. -/
def gaussJacobi_01A2B0_3 : List (List ℚ) :=
  [[dec 72994024073150 15, dec 347003766038352 15, dec 705002209888499 15],
   [dec 157136361064887 15, dec 146246269259866 15, dec 29950703008581 15]]

/-- `__GaussJacobi_01A2B0_4`, `src/Geom/Quadrature.hpp:79-81`. -/
def gaussJacobi_01A2B0_4 : List (List ℚ) :=
  [[dec 48500549446997 15, dec 238600737551862 15, dec 517047295104367 15, dec 795851417896773 15],
   [dec 110888415611278 15, dec 143458789799214 15, dec 68633887172923 15, dec 10352240749918 15]]

/-- `__GaussJacobi_01A2B0_5`, `src/Geom/Quadrature.hpp:83-85`. -/
def gaussJacobi_01A2B0_5 : List (List ℚ) :=
  [[dec 34578939918215 15, dec 173480320771696 15, dec 389886387065519 15, dec 634333472630887 15, dec 851054212947016 15],
   [dec 81764784285771 15, dec 126198961899911 15, dec 89200161221590 15, dec 32055600722962 15, dec 4113825203099 15]]

/-- `__HammerTri_1`, `src/Geom/Quadrature.hpp:87-92`. -/
def hammerTri_1 : List (List ℚ) :=
  [[1 / 3],
   [1 / 3],
   [1 / 2]]

/-- `__HammerTri_3`, `src/Geom/Quadrature.hpp:94-98`. -/
def hammerTri_3 : List (List ℚ) :=
  [[2 / 3, 1 / 6, 1 / 6],
   [1 / 6, 2 / 3, 1 / 6],
   [1 / 6, 1 / 6, 1 / 6]]

/-- `__HammerTri_6`, `src/Geom/Quadrature.hpp:105-109`. -/
def hammerTri_6 : List (List ℚ) :=
  [[dec 9157621350977102 17, dec 8168475729804585 16, dec 9157621350977052 17, dec 445948490915965 15, dec 10810301816807 14, dec 445948490915965 15],
   [dec 9157621350977102 17, dec 9157621350977052 17, dec 8168475729804585 16, dec 445948490915965 15, dec 445948490915965 15, dec 10810301816807 14],
   [dec 54975871827661 15, dec 54975871827661 15, dec 54975871827661 15, dec 1116907948390057 16, dec 1116907948390057 16, dec 1116907948390057 16]]

/-- `__HammerTri_7`, `src/Geom/Quadrature.hpp:111-115`. -/
def hammerTri_7 : List (List ℚ) :=
  [[dec 3333333333333335 16, dec 470142064105115 15, dec 5971587178977 14, dec 470142064105115 15, dec 1012865073234565 16, dec 7974269853530875 16, dec 1012865073234565 16],
   [dec 3333333333333335 16, dec 470142064105115 15, dec 470142064105115 15, dec 5971587178977 14, dec 1012865073234565 16, dec 1012865073234565 16, dec 7974269853530875 16],
   [dec 1125 4, dec 66197076394253 15, dec 66197076394253 15, dec 66197076394253 15, dec 629695902724135 16, dec 629695902724135 16, dec 629695902724135 16]]

/-- `__HammerTri_12`, `src/Geom/Quadrature.hpp:118-122`. -/
def hammerTri_12 : List (List ℚ) :=
  [[dec 2492867451709105 16, dec 501426509658179 15, dec 2492867451709105 16, dec 63089014491502 15, dec 8738219710169954 16, dec 63089014491502 15, dec 3103524510337845 16, dec 5314504984481699 17, dec 6365024991213986 16, dec 5314504984481699 17, dec 6365024991213986 16, dec 3103524510337845 16],
   [dec 2492867451709105 16, dec 2492867451709105 16, dec 501426509658179 15, dec 63089014491502 15, dec 63089014491502 15, dec 8738219710169954 16, dec 5314504984481699 17, dec 3103524510337845 16, dec 5314504984481699 17, dec 6365024991213986 16, dec 3103524510337845 16, dec 6365024991213986 16],
   [dec 5839313786318975 17, dec 5839313786318975 17, dec 5839313786318975 17, dec 254224531851035 16, dec 254224531851035 16, dec 254224531851035 16, dec 4142553780918675 17, dec 4142553780918675 17, dec 4142553780918675 17, dec 4142553780918675 17, dec 4142553780918675 17, dec 4142553780918675 17]]

/-- `__HammerTet_1`, `src/Geom/Quadrature.hpp:124-129`. -/
def hammerTet_1 : List (List ℚ) :=
  [[dec 25 2],
   [dec 25 2],
   [dec 25 2],
   [dec 1666666666666667 16]]

/-- `__HammerTet_4`, `src/Geom/Quadrature.hpp:131-136`. -/
def hammerTet_4 : List (List ℚ) :=
  [[dec 1381966011250105 16, dec 1381966011250105 16, dec 5854101966249685 16, dec 1381966011250105 16],
   [dec 1381966011250105 16, dec 5854101966249684 16, dec 1381966011250105 16, dec 1381966011250105 16],
   [dec 5854101966249684 16, dec 1381966011250105 16, dec 1381966011250105 16, dec 1381966011250105 16],
   [dec 4166666666666666 17, dec 4166666666666666 17, dec 4166666666666666 17, dec 4166666666666666 17]]

/-- `__HammerTet_8`, `src/Geom/Quadrature.hpp:138-143`. -/
def hammerTet_8 : List (List ℚ) :=
  [[dec 1069940147705369 16, dec 1069940147705369 16, dec 6790179556883893 16, dec 1069940147705369 16, dec 3280585716625127 16, dec 3280585716625127 16, dec 1582428501246191 17, dec 3280585716625127 16],
   [dec 1069940147705369 16, dec 6790179556883893 16, dec 1069940147705369 16, dec 1069940147705369 16, dec 3280585716625127 16, dec 1582428501246191 17, dec 3280585716625127 16, dec 3280585716625127 16],
   [dec 6790179556883893 16, dec 1069940147705369 16, dec 1069940147705369 16, dec 1069940147705369 16, dec 1582428501246191 17, dec 3280585716625127 16, dec 3280585716625127 16, dec 3280585716625127 16],
   [dec 1859314997209119 17, dec 1859314997209119 17, dec 1859314997209119 17, dec 1859314997209119 17, dec 2307351669457548 17, dec 2307351669457548 17, dec 2307351669457548 17, dec 2307351669457548 17]]

/-- `__HammerTet_14`, `src/Geom/Quadrature.hpp:145-150`. -/
def hammerTet_14 : List (List ℚ) :=
  [[dec 9273525031089125 17, dec 9273525031089125 17, dec 7217942490673263 16, dec 9273525031089125 17, dec 3108859192633008 16, dec 3108859192633008 16, dec 6734224221009777 17, dec 3108859192633008 16, dec 4550370412564952 17, dec 4544962958743505 16, dec 4550370412564952 17, dec 4550370412564952 17, dec 4544962958743505 16, dec 4544962958743505 16],
   [dec 9273525031089125 17, dec 7217942490673263 16, dec 9273525031089125 17, dec 9273525031089125 17, dec 3108859192633008 16, dec 6734224221009777 17, dec 3108859192633008 16, dec 3108859192633008 16, dec 4544962958743505 16, dec 4550370412564952 17, dec 4550370412564952 17, dec 4544962958743505 16, dec 4550370412564952 17, dec 4544962958743505 16],
   [dec 7217942490673263 16, dec 9273525031089125 17, dec 9273525031089125 17, dec 9273525031089125 17, dec 6734224221009777 17, dec 3108859192633008 16, dec 3108859192633008 16, dec 3108859192633008 16, dec 4544962958743505 16, dec 4544962958743505 16, dec 4544962958743505 16, dec 4550370412564952 17, dec 4550370412564952 17, dec 4550370412564952 17],
   [dec 1224884051939367 17, dec 1224884051939367 17, dec 1224884051939367 17, dec 1224884051939367 17, dec 1878132095300264 17, dec 1878132095300264 17, dec 1878132095300264 17, dec 1878132095300264 17, dec 70910034628469 16, dec 70910034628469 16, dec 70910034628469 16, dec 70910034628469 16, dec 70910034628469 16, dec 70910034628469 16]]

/-- `__HammerTet_24`, `src/Geom/Quadrature.hpp:152-157`. -/
def hammerTet_24 : List (List ℚ) :=
  [[dec 2146028712591523 16, dec 2146028712591523 16, dec 3561913862225431 16, dec 2146028712591523 16, dec 3223378901422754 16, dec 3223378901422754 16, dec 329863295731736 16, dec 3223378901422754 16, dec 4067395853461131 17, dec 4067395853461131 17, dec 8779781243961661 16, dec 4067395853461131 17, dec 6030056647916491 16, dec 6030056647916491 16, dec 6366100187501755 17, dec 2696723314583158 16, dec 6366100187501755 17, dec 6366100187501755 17, dec 2696723314583158 16, dec 6366100187501755 17, dec 6366100187501755 17, dec 6366100187501755 17, dec 2696723314583158 16, dec 6030056647916491 16],
   [dec 2146028712591523 16, dec 3561913862225431 16, dec 2146028712591523 16, dec 2146028712591523 16, dec 3223378901422754 16, dec 329863295731736 16, dec 3223378901422754 16, dec 3223378901422754 16, dec 4067395853461131 17, dec 8779781243961661 16, dec 4067395853461131 17, dec 4067395853461131 17, dec 6366100187501755 17, dec 6366100187501755 17, dec 6366100187501755 17, dec 6030056647916491 16, dec 2696723314583158 16, dec 6030056647916491 16, dec 6366100187501755 17, dec 2696723314583158 16, dec 6366100187501755 17, dec 6030056647916491 16, dec 6366100187501755 17, dec 2696723314583158 16],
   [dec 3561913862225431 16, dec 2146028712591523 16, dec 2146028712591523 16, dec 2146028712591523 16, dec 329863295731736 16, dec 3223378901422754 16, dec 3223378901422754 16, dec 3223378901422754 16, dec 8779781243961661 16, dec 4067395853461131 17, dec 4067395853461131 17, dec 4067395853461131 17, dec 2696723314583158 16, dec 6366100187501755 17, dec 6030056647916491 16, dec 6366100187501755 17, dec 6030056647916491 16, dec 6366100187501755 17, dec 6030056647916491 16, dec 6366100187501755 17, dec 2696723314583158 16, dec 2696723314583158 16, dec 6366100187501755 17, dec 6366100187501755 17],
   [dec 6653791709694545 18, dec 6653791709694545 18, dec 6653791709694545 18, dec 6653791709694545 18, dec 9226196923942479 18, dec 9226196923942479 18, dec 9226196923942479 18, dec 9226196923942479 18, dec 1679535175886773 18, dec 1679535175886773 18, dec 1679535175886773 18, dec 1679535175886773 18, dec 8035714285714285 18, dec 8035714285714285 18, dec 8035714285714285 18, dec 8035714285714285 18, dec 8035714285714285 18, dec 8035714285714285 18, dec 8035714285714285 18, dec 8035714285714285 18, dec 8035714285714285 18, dec 8035714285714285 18, dec 8035714285714285 18, dec 8035714285714285 18]]

/-- Models `GetQuadratureScheme`, `src/Geom/Quadrature.hpp:159-296`, with the constants `INT_SCHEME_*`,
`src/Geom/Quadrature.hpp:7-43`: the number of points, `0` if there is no scheme. -/
def scheme (ps : ParamSpace) (order : Int) : Nat :=
  match ps with
  | .line => if order = 0 ∨ order = 1 then 1 else if order = 2 ∨ order = 3 then 2 else if order = 4 ∨ order = 5 then 3
      else if order = 6 then 4 else 0
  | .tri => if order = 0 ∨ order = 1 then 1 else if order = 2 then 3 else if order = 3 ∨ order = 4 then 6
      else if order = 5 then 7 else if order = 6 then 12 else 0
  | .quad => if order = 0 ∨ order = 1 then 1 else if order = 2 ∨ order = 3 then 4 else if order = 4 ∨ order = 5 then 9
      else if order = 6 then 16 else 0
  | .tet => if order = 0 ∨ order = 1 then 1 else if order = 2 then 4 else if order = 3 then 8
      else if order = 4 ∨ order = 5 then 14 else if order = 6 then 24 else 0
  | .hex => if order = 0 ∨ order = 1 then 1 else if order = 2 ∨ order = 3 then 8 else if order = 4 ∨ order = 5 then 27
      else if order = 6 then 64 else 0
  | .pyramid => if order = 0 ∨ order = 1 then 1 else if order = 2 ∨ order = 3 then 8 else if order = 4 ∨ order = 5 then 27
      else if order = 6 then 64 else 0
  | .prism => if order = 0 ∨ order = 1 then 1 else if order = 2 then 6 else if order = 3 ∨ order = 4 then 18
      else if order = 5 then 21 else if order = 6 then 48 else 0
  | .unknown => 0

/-- Entry of a table; the source reads `data[row * size + i]` of the contiguous table. -/
def cell (t : List (List ℚ)) (row i : Nat) : ℚ := (t.getD row []).getD i 0

/-- A point and its weight. -/
structure Pt where
  x : ℚ
  y : ℚ
  z : ℚ
  w : ℚ

/-- What is left when the scheme is not known: the point the caller cleared, and `w = 1e100`. -/
def noPt : Pt := ⟨0, 0, 0, 10 ^ 100⟩

/-- Models the branch for lines, `src/Geom/Quadrature.hpp:308-339`. -/
def linePt (s i : Nat) : Pt :=
  match s with
  | 1 => ⟨cell gaussLegendre_1 0 i, 0, 0, cell gaussLegendre_1 1 i⟩
  | 2 => ⟨cell gaussLegendre_2 0 i, 0, 0, cell gaussLegendre_2 1 i⟩
  | 3 => ⟨cell gaussLegendre_3 0 i, 0, 0, cell gaussLegendre_3 1 i⟩
  | 4 => ⟨cell gaussLegendre_4 0 i, 0, 0, cell gaussLegendre_4 1 i⟩
  | _ => noPt

/-- Models the branch for triangles, `src/Geom/Quadrature.hpp:340-383`. -/
def triPt (s i : Nat) : Pt :=
  match s with
  | 1 => ⟨cell hammerTri_1 0 i, cell hammerTri_1 1 i, 0, cell hammerTri_1 2 i⟩
  | 3 => ⟨cell hammerTri_3 0 i, cell hammerTri_3 1 i, 0, cell hammerTri_3 2 i⟩
  | 6 => ⟨cell hammerTri_6 0 i, cell hammerTri_6 1 i, 0, cell hammerTri_6 2 i⟩
  | 7 => ⟨cell hammerTri_7 0 i, cell hammerTri_7 1 i, 0, cell hammerTri_7 2 i⟩
  | 12 => ⟨cell hammerTri_12 0 i, cell hammerTri_12 1 i, 0, cell hammerTri_12 2 i⟩
  | _ => noPt

/-- Models the branch for tetrahedra, `src/Geom/Quadrature.hpp:384-431`. -/
def tetPt (s i : Nat) : Pt :=
  match s with
  | 1 => ⟨cell hammerTet_1 0 i, cell hammerTet_1 1 i, cell hammerTet_1 2 i, cell hammerTet_1 3 i⟩
  | 4 => ⟨cell hammerTet_4 0 i, cell hammerTet_4 1 i, cell hammerTet_4 2 i, cell hammerTet_4 3 i⟩
  | 8 => ⟨cell hammerTet_8 0 i, cell hammerTet_8 1 i, cell hammerTet_8 2 i, cell hammerTet_8 3 i⟩
  | 14 => ⟨cell hammerTet_14 0 i, cell hammerTet_14 1 i, cell hammerTet_14 2 i, cell hammerTet_14 3 i⟩
  | 24 => ⟨cell hammerTet_24 0 i, cell hammerTet_24 1 i, cell hammerTet_24 2 i, cell hammerTet_24 3 i⟩
  | _ => noPt

/-- Product points of a square, `src/Geom/Quadrature.hpp:467-472`; `n` is `GLSize`. -/
def quadPtOf (gl : List (List ℚ)) (n iG : Nat) : Pt :=
  let i := iG % n
  let j := iG / n
  ⟨cell gl 0 i, cell gl 0 j, 0, cell gl 1 i * cell gl 1 j⟩

/-- Models the branch for squares, `src/Geom/Quadrature.hpp:433-473`. -/
def quadPt (s iG : Nat) : Pt :=
  match s with
  | 1 => quadPtOf gaussLegendre_1 1 iG
  | 4 => quadPtOf gaussLegendre_2 2 iG
  | 9 => quadPtOf gaussLegendre_3 3 iG
  | 16 => quadPtOf gaussLegendre_4 4 iG
  | _ => noPt

/-- Product points of a cube, `src/Geom/Quadrature.hpp:509-517`. -/
def hexPtOf (gl : List (List ℚ)) (n iG : Nat) : Pt :=
  let i := iG % n
  let j := (iG / n) % n
  let k := iG / (n * n)
  ⟨cell gl 0 i, cell gl 0 j, cell gl 0 k, cell gl 1 i * cell gl 1 j * cell gl 1 k⟩

/-- Models the branch for cubes, `src/Geom/Quadrature.hpp:475-518`. -/
def hexPt (s iG : Nat) : Pt :=
  match s with
  | 1 => hexPtOf gaussLegendre_1 1 iG
  | 8 => hexPtOf gaussLegendre_2 2 iG
  | 27 => hexPtOf gaussLegendre_3 3 iG
  | 64 => hexPtOf gaussLegendre_4 4 iG
  | _ => noPt

/-- Product points of a pyramid, `src/Geom/Quadrature.hpp:559-567`. -/
def pyramidPtOf (gl gj : List (List ℚ)) (n iG : Nat) : Pt :=
  let i := iG % n
  let j := (iG / n) % n
  let k := iG / (n * n)
  ⟨cell gl 0 i * (1 - cell gj 0 k), cell gl 0 j * (1 - cell gj 0 k), cell gj 0 k, cell gl 1 i * cell gl 1 j * cell gj 1 k⟩

/-- Models the branch for pyramids, `src/Geom/Quadrature.hpp:520-568`. -/
def pyramidPt (s iG : Nat) : Pt :=
  match s with
  | 1 => pyramidPtOf gaussLegendre_1 gaussJacobi_01A2B0_1 1 iG
  | 8 => pyramidPtOf gaussLegendre_2 gaussJacobi_01A2B0_2 2 iG
  | 27 => pyramidPtOf gaussLegendre_3 gaussJacobi_01A2B0_3 3 iG
  | 64 => pyramidPtOf gaussLegendre_4 gaussJacobi_01A2B0_4 4 iG
  | _ => noPt

/-- Product points of a prism, `src/Geom/Quadrature.hpp:622-630`. -/
def prismPtOf (gl tri : List (List ℚ)) (n iG : Nat) : Pt :=
  let i := iG % n
  let j := iG / n
  ⟨cell tri 0 j, cell tri 1 j, cell gl 0 i, cell gl 1 i * cell tri 2 j⟩

/-- Models the branch for prisms, `src/Geom/Quadrature.hpp:570-631`. -/
def prismPt (s iG : Nat) : Pt :=
  match s with
  | 1 => prismPtOf gaussLegendre_1 hammerTri_1 1 iG
  | 6 => prismPtOf gaussLegendre_2 hammerTri_3 2 iG
  | 18 => prismPtOf gaussLegendre_3 hammerTri_6 3 iG
  | 21 => prismPtOf gaussLegendre_3 hammerTri_7 3 iG
  | 48 => prismPtOf gaussLegendre_4 hammerTri_12 4 iG
  | _ => noPt

/-- Models `GetQuadraturePoint`, `src/Geom/Quadrature.hpp:303-635`, on a point the caller cleared. -/
def quadraturePoint (ps : ParamSpace) (s iG : Nat) : Res Pt :=
  if iG < s then
    .ok (match ps with
      | .line => linePt s iG
      | .tri => triPt s iG
      | .tet => tetPt s iG
      | .quad => quadPt s iG
      | .hex => hexPt s iG
      | .pyramid => pyramidPt s iG
      | .prism => prismPt s iG
      | .unknown => noPt)
  else .abort

/-- The point as a parametric point. -/
noncomputable def Pt.at (q : Pt) : Fin 3 → ℝ := ![(q.x : ℝ), (q.y : ℝ), (q.z : ℝ)]

/-- Models the loop of `Quadrature::Integration`, `src/Geom/Quadrature.hpp:705-720`, from the point `iG` on, `n` points to go.
The stored shape functions are those at the points, `__TNBufferAtQuadrature`, `src/Geom/Quadrature.hpp:663-689`. -/
noncomputable def integrateFrom (t : ElemType) (s : Nat) (f : Nat → (Fin 3 → ℝ) → (Nat → Nat → ℝ) → ℝ) : Nat → Nat → ℝ → Res ℝ
  | _, 0, buf => .ok buf
  | iG, n + 1, buf => do
    let q ← quadraturePoint (paramSpace t) s iG
    let d01 ← Shape.getD01Nj t q.at
    integrateFrom t s f (iG + 1) n (buf + f iG q.at d01 * q.w)

/-- Models `Quadrature::Integration` of a `Quadrature(elem, order)`, `src/Geom/Quadrature.hpp:691-720`. -/
noncomputable def integration (t : ElemType) (order : Int) (f : Nat → (Fin 3 → ℝ) → (Nat → Nat → ℝ) → ℝ) (buf : ℝ) : Res ℝ :=
  let s := scheme (paramSpace t) order
  integrateFrom t s f 0 s buf

end DNDSR.Quad
