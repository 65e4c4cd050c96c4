import Verif.Model.Partition

/-!
# Global and local numbering of mesh adjacencies (`src/Geom/Mesh.hpp:177-314`, `src/Geom/Mesh.cpp:984-1269`)

One rank is modelled; the index mappings it uses are those of `Verif.Model.IndexMapping`.  An adjacency
(father followed by son, as the array pair numbers its rows) is the list of its rows.  The loops run over
all rows and entries and rewrite each entry in place; the OpenMP versions give each row to one thread, so
the order does not matter.  `DNDS_assert`s that a mapping pointer is set are taken to hold.
-/

namespace DNDSR.MeshAdj

open DNDSR.IMap DNDSR.Part

/-- Models `NodeIndexGlobal2Local`, `src/Geom/Mesh.hpp:177-188`, `CellIndexGlobal2Local`,
`src/Geom/Mesh.hpp:233-245`, and the lambda `FaceIndexGlobal2Local`, `src/Geom/Mesh.cpp:1178-1189`: the
same code with the node, cell and face mapping. -/
def global2Local (m : Map) (q : Int) : Res Int :=
  if q = unInit then .ok q
  else do
    match ← m.searchAppend q with
    | some (_, v) => .ok v
    | none => .ok (-1 - q)

/-- Models `NodeIndexLocal2Global`, `src/Geom/Mesh.hpp:190-198`, `CellIndexLocal2Global`,
`src/Geom/Mesh.hpp:247-256`, and the lambda `FaceIndexLocal2Global`, `src/Geom/Mesh.cpp:1145-1153`. -/
def local2Global (m : Map) (v : Int) : Res Int :=
  if v = unInit then .ok v
  else if v < 0 then .ok (-1 - v)
  else m.apply (-1) v

/-- Models `BndIndexLocal2Global_NoSon`, `src/Geom/Mesh.hpp:287-297`, and the identical `Node...`
(`src/Geom/Mesh.hpp:200-210`) and `Cell...` (`src/Geom/Mesh.hpp:258-268`): `n` is the size of the father. -/
def local2GlobalNoSon (g : GOM) (rank n : Nat) (v : Int) : Res Int :=
  if v = unInit then .ok unInit
  else if v < 0 then .ok (-1 - v)
  else do
    Res.assert (¬ v ≥ n)
    g.apply rank v

/-- Models `BndIndexGlobal2Local_NoSon`, `src/Geom/Mesh.hpp:303-314`, and the identical `Node...`
(`src/Geom/Mesh.hpp:216-227`) and `Cell...` (`src/Geom/Mesh.hpp:274-285`). -/
def global2LocalNoSon (g : GOM) (rank : Nat) (q : Int) : Res Int :=
  if q = unInit then .ok unInit
  else do
    match ← g.search q with
    | none => .abort
    | some (r, v) => .ok (if r = rank then v else -1 - q)

/-- the two nested loops: every entry is replaced by `f` of its column and value -/
def mapRows (f : Nat → Int → Res Int) (rows : List (List Int)) : Res (List (List Int)) :=
  forRanks (fun _ row => forRanks f 0 row) 0 rows

/-- `x = f(x), DNDS_assert(x >= 0)` -/
def nonneg (f : Int → Res Int) (x : Int) : Res Int := do
  let y ← f x
  Res.assert (y ≥ 0)
  .ok y

/-- `x = f(x), DNDS_assert(j == 0 ? x >= 0 : true)` -/
def firstNonneg (f : Int → Res Int) (j : Nat) (x : Int) : Res Int := do
  let y ← f x
  Res.assert (if j = 0 then y ≥ 0 else True)
  .ok y

/-- `search_indexAppend` that must succeed, `src/Geom/Mesh.cpp:1087-1091` -/
def mustFind (m : Map) (q : Int) : Res Int := do
  match ← m.searchAppend q with
  | some (_, v) => .ok v
  | none => .abort

/-- Models `MeshAdjState`, `src/Geom/Mesh.hpp:69-74`. -/
inductive AdjState where
  | unknown | pointToLocal | pointToGlobal
  deriving Repr, DecidableEq

/-- Models `cell2cell`, `bnd2cell`, `cell2node`, `bnd2node` and their state, `src/Geom/Mesh.hpp:90-91,102-106`. -/
structure Primary where
  state : AdjState
  cell2cell : List (List Int)
  bnd2cell : List (List Int)
  cell2node : List (List Int)
  bnd2node : List (List Int)
  deriving Repr, DecidableEq

/-- Models `face2node`, `face2cell` and their state, `src/Geom/Mesh.hpp:92-93,119-120`.  A face is given with its
node row and its cell row, since the two arrays are sized together. -/
structure Facial where
  state : AdjState
  faces : List (List Int × List Int)
  deriving Repr, DecidableEq

/-- Models `cell2face` and its state, `src/Geom/Mesh.hpp:94-95,118`. -/
structure C2F where
  state : AdjState
  cell2face : List (List Int)
  deriving Repr, DecidableEq

/-- Models `node2cell`, `node2bnd` and their state, `src/Geom/Mesh.hpp:96-97,113-114`. -/
structure N2CB where
  state : AdjState
  node2cell : List (List Int)
  node2bnd : List (List Int)
  deriving Repr, DecidableEq

/-- Models the adjacency members of `UnstructuredMesh`, `src/Geom/Mesh.hpp:88-120`. -/
structure Mesh where
  prim : Primary
  fac : Facial
  c2f : C2F
  n2cb : N2CB
  deriving Repr, DecidableEq

/-- the mappings a rank converts with: cells, nodes and faces (with ghosts), and boundaries (without) -/
structure Maps where
  cell : Map
  node : Map
  face : Map
  bnd : GOM
  rank : Nat
  nBnd : Nat

/-- Models `AdjGlobal2LocalPrimary`, `src/Geom/Mesh.cpp:984-1012`. -/
def adjGlobal2LocalPrimary (w : Maps) (s : Primary) : Res Primary := do
  Res.assert (s.state = .pointToGlobal)
  let c2c ← mapRows (fun _ x => global2Local w.cell x) s.cell2cell
  let b2c ← mapRows (fun j x => firstNonneg (global2Local w.cell) j x) s.bnd2cell
  let c2n ← mapRows (fun _ x => nonneg (global2Local w.node) x) s.cell2node
  let b2n ← mapRows (fun _ x => nonneg (global2Local w.node) x) s.bnd2node
  .ok { s with state := .pointToLocal, cell2cell := c2c, bnd2cell := b2c, cell2node := c2n, bnd2node := b2n }

/-- Models `AdjLocal2GlobalPrimary`, `src/Geom/Mesh.cpp:1014-1043`. -/
def adjLocal2GlobalPrimary (w : Maps) (s : Primary) : Res Primary := do
  Res.assert (s.state = .pointToLocal)
  let c2c ← mapRows (fun _ x => local2Global w.cell x) s.cell2cell
  let b2c ← mapRows (fun j x => firstNonneg (local2Global w.cell) j x) s.bnd2cell
  let c2n ← mapRows (fun _ x => nonneg (local2Global w.node) x) s.cell2node
  let b2n ← mapRows (fun _ x => nonneg (local2Global w.node) x) s.bnd2node
  .ok { s with state := .pointToGlobal, cell2cell := c2c, bnd2cell := b2c, cell2node := c2n, bnd2node := b2n }

/-- Models `AdjGlobal2LocalPrimaryForBnd`, `src/Geom/Mesh.cpp:1045-1058`. -/
def adjGlobal2LocalPrimaryForBnd (w : Maps) (s : Primary) : Res Primary := do
  Res.assert (s.state = .pointToGlobal)
  let c2n ← mapRows (fun _ x => nonneg (global2Local w.node) x) s.cell2node
  .ok { s with state := .pointToLocal, cell2node := c2n }

/-- Models `AdjLocal2GlobalPrimaryForBnd`, `src/Geom/Mesh.cpp:1060-1072`. -/
def adjLocal2GlobalPrimaryForBnd (w : Maps) (s : Primary) : Res Primary := do
  Res.assert (s.state = .pointToLocal)
  let c2n ← mapRows (fun _ x => nonneg (local2Global w.node) x) s.cell2node
  .ok { s with state := .pointToGlobal, cell2node := c2n }

/-- the entry of `face2cell`, `src/Geom/Mesh.cpp:1095-1103` -/
def faceCellToLocal (m : Map) (q : Int) : Res Int := if q = unInit then .ok q else mustFind m q

/-- the entry of `face2cell`, `src/Geom/Mesh.cpp:1128-1130` -/
def faceCellToGlobal (m : Map) (v : Int) : Res Int := if v = unInit then .ok v else m.apply (-1) v

/-- Models `AdjGlobal2LocalFacial`, `src/Geom/Mesh.cpp:1073-1108`. -/
def adjGlobal2LocalFacial (w : Maps) (s : Facial) : Res Facial := do
  Res.assert (s.state = .pointToGlobal)
  let fs ← forRanks (fun _ (f : List Int × List Int) => do
    let ns ← forRanks (fun _ x => mustFind w.node x) 0 f.1
    let cs ← forRanks (fun _ x => faceCellToLocal w.cell x) 0 f.2
    .ok (ns, cs)) 0 s.faces
  .ok { s with state := .pointToLocal, faces := fs }

/-- Models `AdjLocal2GlobalFacial`, `src/Geom/Mesh.cpp:1110-1136`. -/
def adjLocal2GlobalFacial (w : Maps) (s : Facial) : Res Facial := do
  Res.assert (s.state = .pointToLocal)
  let fs ← forRanks (fun _ (f : List Int × List Int) => do
    let ns ← forRanks (fun _ x => w.node.apply (-1) x) 0 f.1
    let cs ← forRanks (fun _ x => faceCellToGlobal w.cell x) 0 f.2
    .ok (ns, cs)) 0 s.faces
  .ok { s with state := .pointToGlobal, faces := fs }

/-- Models `AdjLocal2GlobalC2F`, `src/Geom/Mesh.cpp:1138-1169`. -/
def adjLocal2GlobalC2F (w : Maps) (s : C2F) : Res C2F := do
  Res.assert (s.state = .pointToLocal)
  let c ← mapRows (fun _ x => local2Global w.face x) s.cell2face
  .ok { s with state := .pointToGlobal, cell2face := c }

/-- Models `AdjGlobal2LocalC2F`, `src/Geom/Mesh.cpp:1171-1204`. -/
def adjGlobal2LocalC2F (w : Maps) (s : C2F) : Res C2F := do
  Res.assert (s.state = .pointToGlobal)
  let c ← mapRows (fun _ x => global2Local w.face x) s.cell2face
  .ok { s with state := .pointToLocal, cell2face := c }

/-- Models `AdjLocal2GlobalN2CB`, `src/Geom/Mesh.cpp:1224-1246`. -/
def adjLocal2GlobalN2CB (w : Maps) (s : N2CB) : Res N2CB := do
  Res.assert (s.state = .pointToLocal)
  let nc ← mapRows (fun _ x => local2Global w.cell x) s.node2cell
  let nb ← mapRows (fun _ x => local2GlobalNoSon w.bnd w.rank w.nBnd x) s.node2bnd
  .ok { s with state := .pointToGlobal, node2cell := nc, node2bnd := nb }

/-- Models `AdjGlobal2LocalN2CB`, `src/Geom/Mesh.cpp:1248-1269`. -/
def adjGlobal2LocalN2CB (w : Maps) (s : N2CB) : Res N2CB := do
  Res.assert (s.state = .pointToGlobal)
  let nc ← mapRows (fun _ x => global2Local w.cell x) s.node2cell
  let nb ← mapRows (fun _ x => global2LocalNoSon w.bnd w.rank x) s.node2bnd
  .ok { s with state := .pointToLocal, node2cell := nc, node2bnd := nb }

/-- the conversion calls of a mesh (the `...ForBnd` calls are for boundary meshes, which have no `cell2cell`) -/
inductive Conv where
  | primToLocal | primToGlobal | facToLocal | facToGlobal | c2fToLocal | c2fToGlobal | n2cbToLocal | n2cbToGlobal
  deriving Repr, DecidableEq

/-- one conversion call on the mesh object; each function above touches only its own members -/
def convert (w : Maps) (s : Mesh) : Conv → Res Mesh
  | .primToLocal => do let p ← adjGlobal2LocalPrimary w s.prim; .ok { s with prim := p }
  | .primToGlobal => do let p ← adjLocal2GlobalPrimary w s.prim; .ok { s with prim := p }
  | .facToLocal => do let p ← adjGlobal2LocalFacial w s.fac; .ok { s with fac := p }
  | .facToGlobal => do let p ← adjLocal2GlobalFacial w s.fac; .ok { s with fac := p }
  | .c2fToLocal => do let p ← adjGlobal2LocalC2F w s.c2f; .ok { s with c2f := p }
  | .c2fToGlobal => do let p ← adjLocal2GlobalC2F w s.c2f; .ok { s with c2f := p }
  | .n2cbToLocal => do let p ← adjGlobal2LocalN2CB w s.n2cb; .ok { s with n2cb := p }
  | .n2cbToGlobal => do let p ← adjLocal2GlobalN2CB w s.n2cb; .ok { s with n2cb := p }

/-- a history of conversion calls -/
def convertAll (w : Maps) (s : Mesh) : List Conv → Res Mesh
  | [] => .ok s
  | c :: cs => do
    let s' ← convert w s c
    convertAll w s' cs

end DNDSR.MeshAdj
