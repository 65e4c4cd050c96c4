import Verif.Model.IndexMapping

/-!
# The zones of the boundary (`BoundaryHandler`, `src/Euler/EulerBC.hpp:12-316`)

An object in JSON is the list of its keys and values; numbers of the values are of any type `K`.  Reading and writing of the text is not
modelled, nor is `const operator[]` with a key that is missing, which is undefined.
-/

namespace DNDSR.Zones

open DNDSR.IMap

variable {K : Type}

/-- `EulerBCType`, `src/Euler/EulerBC.hpp:12-24` -/
inductive Kind
  | unknown | far | wall | wallInvis | out | outP | inn | inPsTs | sym | special
  deriving DecidableEq

/-- a value in JSON -/
inductive J (K : Type)
  | str (s : String)
  | nat (n : Nat)
  | vec (v : List K)
  | null

/-- an object in JSON -/
abbrev Obj (K : Type) := List (String × J K)

/-- the names of the types, `src/Euler/EulerBC.hpp:26-39`, without the first, which is `null` -/
def kindNames : List (Kind × String) :=
  [(.far, "BCFar"), (.wall, "BCWall"), (.wallInvis, "BCWallInvis"), (.out, "BCOut"), (.outP, "BCOutP"), (.inn, "BCIn"), (.inPsTs, "BCInPsTs"), (.sym, "BCSym"),
   (.special, "BCSpecial")]

/-- `from_json` of `NLOHMANN_JSON_SERIALIZE_ENUM`: what is not in the table is the first entry -/
def kindOf : J K → Kind
  | .str s => ((kindNames.find? fun p => p.2 == s).map Prod.fst).getD .unknown
  | _ => .unknown

/-- `to_json` of `NLOHMANN_JSON_SERIALIZE_ENUM` -/
def kindTo (k : Kind) : J K := ((kindNames.find? fun p => p.1 == k).map fun p => J.str p.2).getD .null

/-- `BC_ID_DEFAULT_MAX`, `src/Geom/BoundaryCondition.hpp:44` -/
def defaultMax : Nat := 20

/-- `GetFaceName2IDDefault`, `src/Geom/BoundaryCondition.hpp:80-100` -/
def defaultNames : List (String × Int) :=
  [("PERIODIC_1", -1), ("PERIODIC_2", -2), ("PERIODIC_3", -3), ("PERIODIC_1_DONOR", -4), ("PERIODIC_2_DONOR", -5), ("PERIODIC_3_DONOR", -6),
   ("WALL", 2), ("bc-4", 2), ("FAR", 3), ("bc-2", 3), ("WALL_INVIS", 4), ("bc-3", 4),
   ("bc-DMRFar", 11), ("bc-IVFar", 13), ("bc-RTFar", 12), ("bc-2DRiemannFar", 14)]

/-- `TFlags`; an entry hides those after it with the same key -/
abbrev Flags := List (String × Nat)

/-- the data of `BoundaryHandler`, `src/Euler/EulerBC.hpp:49-63`, without `ID2name`, which is made from `name2ID` -/
structure Handler (K : Type) where
  nVars : Nat
  values : List (List K)
  types : List Kind
  flags : List Flags
  extras : List (List K)
  name2ID : List (String × Int)

/-- Models the constructor, `src/Euler/EulerBC.hpp:66-86`; `u` is what the values of default zones are. -/
def Handler.new (nVars : Nat) (u : List K) : Handler K where
  nVars := nVars
  values := List.replicate defaultMax u
  types := [.unknown, .unknown, .wall, .far, .wallInvis, .unknown, .unknown, .unknown, .unknown, .unknown, .unknown,
    .special, .special, .special, .special, .unknown, .unknown, .unknown, .unknown, .unknown]
  flags := List.replicate defaultMax []
  extras := List.replicate defaultMax []
  name2ID := defaultNames

/-- an optional number: `uint32_t x = 0; if (item.count(key)) x = item[key];` -/
def numOpt (o : Obj K) (key : String) : Res Nat :=
  match o.lookup key with
  | none => .ok 0
  | some (.nat n) => .ok (n % 2 ^ 32)
  | some _ => .abort

/-- an optional vector -/
def vecOpt (o : Obj K) (key : String) : Res (List K) :=
  match o.lookup key with
  | none => .ok []
  | some (.vec v) => .ok v
  | some _ => .abort

/-- `Eigen::VectorXd bcValue = item[key]` -/
def vecReq (o : Obj K) (key : String) : Res (List K) :=
  match o.lookup key with
  | none => .ub
  | some (.vec v) => .ok v
  | some _ => .abort

/-- `std::string bcName = item[key]` -/
def strReq (o : Obj K) (key : String) : Res String :=
  match o.lookup key with
  | none => .ub
  | some (.str s) => .ok s
  | some _ => .abort

/-- `item["type"].get<EulerBCType>()` -/
def kindReq (o : Obj K) : Res Kind :=
  match o.lookup "type" with
  | none => .ub
  | some j => .ok (kindOf j)

/-- Models the `switch` of `from_json`, `src/Euler/EulerBC.hpp:123-198`: flags, value and further values. -/
def readBody [Zero K] (nVars : Nat) (o : Obj K) : Kind → Res (Flags × List K × List K)
  | .far | .out | .outP | .inn | .inPsTs => do
    let frameOption ← numOpt o "frameOption"
    let anchorOption ← numOpt o "anchorOption"
    let integrationOption ← numOpt o "integrationOption"
    let extra ← vecOpt o "valueExtra"
    let value ← vecReq o "value"
    Res.assert (value.length = nVars)
    .ok ([("integrationOpt", integrationOption), ("anchorOpt", anchorOption), ("frameOpt", frameOption)], value, extra)
  | .wall | .wallInvis | .special => do
    let frameOption ← numOpt o "frameOption"
    let integrationOption ← numOpt o "integrationOption"
    let extra ← vecOpt o "valueExtra"
    let specialOption ← numOpt o "specialOption"
    .ok ([("specialOpt", specialOption), ("integrationOpt", integrationOption), ("frameOpt", frameOption)], List.replicate nVars 0, extra)
  | .sym => do
    let rectifyOption ← numOpt o "rectifyOption"
    let integrationOption ← numOpt o "integrationOption"
    let extra ← vecOpt o "valueExtra"
    .ok ([("integrationOpt", integrationOption), ("rectifyOpt", rectifyOption)], List.replicate nVars 0, extra)
  | .unknown => .abort

/-- Models the body of the loop of `from_json`, `src/Euler/EulerBC.hpp:118-208`. -/
def Handler.push [Zero K] (h : Handler K) (o : Obj K) : Res (Handler K) := do
  let kind ← kindReq o
  let name ← strReq o "name"
  let b ← readBody h.nVars o kind
  let flags := h.flags ++ [b.1]
  let values := h.values ++ [b.2.1]
  let extras := h.extras ++ [b.2.2]
  let types := h.types ++ [kind]
  Res.assert (h.name2ID.lookup name = none)
  let names := (name, ((types.length : Int) - 1)) :: h.name2ID
  Res.assert (flags.length = types.length ∧ values.length = types.length ∧ extras.length = types.length)
  .ok { h with values := values, types := types, flags := flags, extras := extras, name2ID := names }

/-- Models `from_json`, `src/Euler/EulerBC.hpp:115-210`. -/
def Handler.read [Zero K] (h : Handler K) : List (Obj K) → Res (Handler K)
  | [] => .ok h
  | o :: os => do
    let h ← h.push o
    h.read os

/-- `ID2name.at(id)` after `RenewID2name`, `src/Euler/EulerBC.hpp:102-107`; `ord` is `name2ID` in the order in which the map is gone through, of which the
last name of a number stays. -/
def nameOf (ord : List (String × Int)) (id : Int) : Option String := (ord.reverse.find? fun p => p.2 == id).map Prod.fst

/-- `bc.BCFlags.at(i).at(key)` -/
def flagAt (flags : List Flags) (i : Nat) (key : String) : Res Nat :=
  match flags[i]? with
  | none => .abort
  | some f => match f.lookup key with
    | none => .abort
    | some v => .ok v

/-- `at` of `std::vector` -/
def vAt {α : Type} (l : List α) (i : Nat) : Res α :=
  match l[i]? with
  | none => .abort
  | some x => .ok x

/-- Models the `switch` of `to_json`, `src/Euler/EulerBC.hpp:222-258`. -/
def writeBody (h : Handler K) (i : Nat) : Kind → Res (Obj K)
  | .far | .out | .outP | .inn | .inPsTs => do
    let v ← vAt h.values i
    let f ← flagAt h.flags i "frameOpt"
    let a ← flagAt h.flags i "anchorOpt"
    let e ← vAt h.extras i
    .ok [("value", .vec v), ("frameOption", .nat f), ("anchorOption", .nat a), ("valueExtra", .vec e)]
  | .wall | .wallInvis | .special => do
    let f ← flagAt h.flags i "frameOpt"
    let g ← flagAt h.flags i "integrationOpt"
    let s ← flagAt h.flags i "specialOpt"
    let e ← vAt h.extras i
    .ok [("frameOption", .nat f), ("integrationOption", .nat g), ("specialOption", .nat s), ("valueExtra", .vec e)]
  | .sym => do
    let r ← flagAt h.flags i "rectifyOpt"
    let e ← vAt h.extras i
    .ok [("rectifyOption", .nat r), ("valueExtra", .vec e)]
  | .unknown => .abort

/-- Models the body of the loop of `to_json`, `src/Euler/EulerBC.hpp:217-259`. -/
def writeItem (h : Handler K) (ord : List (String × Int)) (i : Nat) : Res (Obj K) := do
  let kind ← idx h.types i
  match nameOf ord i with
  | none => .abort
  | some name => do
    let b ← writeBody h i kind
    .ok ([("type", kindTo kind), ("name", .str name), ("__bcId", .nat i)] ++ b)

/-- Models the loop of `to_json`, `src/Euler/EulerBC.hpp:215-260`. -/
def writeFrom (h : Handler K) (ord : List (String × Int)) : List Nat → Res (List (Obj K))
  | [] => .ok []
  | i :: is => do
    let o ← writeItem h ord i
    let os ← writeFrom h ord is
    .ok (o :: os)

/-- Models `to_json`, `src/Euler/EulerBC.hpp:212-261`. -/
def Handler.write (h : Handler K) (ord : List (String × Int)) : Res (List (Obj K)) :=
  writeFrom h ord (List.range' defaultMax (h.types.length - defaultMax))

/-- Models `GetIDFromName`, `src/Euler/EulerBC.hpp:266-272`; 1 is `BC_ID_NULL`. -/
def Handler.idOf (h : Handler K) (name : String) : Int := (h.name2ID.lookup name).getD 1

/-- Models `GetNameFormID`, `src/Euler/EulerBC.hpp:274-279`. -/
def Handler.nameOf (_h : Handler K) (ord : List (String × Int)) (id : Int) : String := (Zones.nameOf ord id).getD "UnNamedBC"

/-- Models `GetTypeFromID`, `src/Euler/EulerBC.hpp:281-287`. -/
def Handler.typeOf (h : Handler K) (id : Int) : Res Kind := if ¬ 0 < id then .ok .unknown else vAt h.types id.toNat

/-- Models `GetValueFromID`, `src/Euler/EulerBC.hpp:289-294`. -/
def Handler.valueOf (h : Handler K) (id : Int) : Res (List K) := if ¬ 0 < id then vAt h.values 0 else vAt h.values id.toNat

/-- Models `GetValueExtraFromID`, `src/Euler/EulerBC.hpp:296-301`. -/
def Handler.extraOf (h : Handler K) (id : Int) : Res (List K) := if ¬ 0 < id then vAt h.extras 0 else vAt h.extras id.toNat

/-- Models `GetFlagFromID`, `src/Euler/EulerBC.hpp:303-308`. -/
def Handler.flagOf (h : Handler K) (id : Int) (key : String) : Res Nat := if ¬ 0 < id then .ok 0 else flagAt h.flags id.toNat key

/-- Models `GetFlagFromIDSoft`, `src/Euler/EulerBC.hpp:310-315`. -/
def Handler.flagSoft (h : Handler K) (id : Int) (key : String) : Res Nat :=
  if ¬ 0 < id then .ok 0
  else match h.flags[id.toNat]? with
    | none => .abort
    | some f => .ok ((f.lookup key).getD 0)

end DNDSR.Zones
