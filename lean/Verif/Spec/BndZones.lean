import Verif.Model.BndZones

/-!
# What a list of zones says (C97)
-/

namespace DNDSR.Zones

variable {K : Type}

/-- a zone as the user describes it -/
structure Zone (K : Type) where
  kind : Kind
  name : String
  value : List K
  extra : List K
  frame : Nat
  anchor : Nat
  integ : Nat
  special : Nat
  rectify : Nat

/-- gas goes through the boundary: the zone has a value -/
def Kind.open : Kind → Bool
  | .far | .out | .outP | .inn | .inPsTs => true
  | _ => false

/-- a wall, or a type of its own -/
def Kind.solid : Kind → Bool
  | .wall | .wallInvis | .special => true
  | _ => false

/-- the name of a type in the file -/
def Kind.word : Kind → String
  | .unknown => "" | .far => "BCFar" | .wall => "BCWall" | .wallInvis => "BCWallInvis" | .out => "BCOut" | .outP => "BCOutP"
  | .inn => "BCIn" | .inPsTs => "BCInPsTs" | .sym => "BCSym" | .special => "BCSpecial"

/-- the object has the number `v` under the key, or nothing, which means zero -/
def Num (o : Obj K) (key : String) (v : Nat) : Prop := (o.lookup key = none ∧ v = 0) ∨ (o.lookup key = some (.nat v) ∧ v < 2 ^ 32)

/-- the object has the vector `v` under the key, or nothing, which means no values -/
def Vec (o : Obj K) (key : String) (v : List K) : Prop := (o.lookup key = none ∧ v = []) ∨ o.lookup key = some (.vec v)

/-- the object describes the zone, for `nVars` variables -/
structure Describes [Zero K] (nVars : Nat) (o : Obj K) (z : Zone K) : Prop where
  known : z.kind ≠ .unknown
  type : o.lookup "type" = some (.str z.kind.word)
  name : o.lookup "name" = some (.str z.name)
  extra : Vec o "valueExtra" z.extra
  integ : Num o "integrationOption" z.integ
  value : if z.kind.open then o.lookup "value" = some (.vec z.value) ∧ z.value.length = nVars else z.value = List.replicate nVars 0
  frame : if z.kind = .sym then z.frame = 0 else Num o "frameOption" z.frame
  anchor : if z.kind.open then Num o "anchorOption" z.anchor else z.anchor = 0
  special : if z.kind.solid then Num o "specialOption" z.special else z.special = 0
  rectify : if z.kind = .sym then Num o "rectifyOption" z.rectify else z.rectify = 0

/-- all zones have names of their own -/
structure Named (zs : List (Zone K)) : Prop where
  distinct : (zs.map Zone.name).Nodup
  own : ∀ z ∈ zs, ∀ id, (z.name, id) ∉ defaultNames

/-- all questions about the zone with number `id` are answered as `z` says -/
structure Holds (h : Handler K) (ord : List (String × Int)) (id : Nat) (z : Zone K) : Prop where
  number : h.idOf z.name = id
  name : h.nameOf ord id = z.name
  type : h.typeOf id = .ok z.kind
  value : h.valueOf id = .ok z.value
  extra : h.extraOf id = .ok z.extra
  frame : h.flagSoft id "frameOpt" = .ok z.frame
  anchor : h.flagSoft id "anchorOpt" = .ok z.anchor
  integ : h.flagSoft id "integrationOpt" = .ok z.integ
  special : h.flagSoft id "specialOpt" = .ok z.special
  rectify : h.flagSoft id "rectifyOpt" = .ok z.rectify
  frameHard : z.kind ≠ .sym → h.flagOf id "frameOpt" = .ok z.frame
  anchorHard : z.kind.open → h.flagOf id "anchorOpt" = .ok z.anchor
  specialHard : z.kind.solid → h.flagOf id "specialOpt" = .ok z.special
  rectifyHard : z.kind = .sym → h.flagOf id "rectifyOpt" = .ok z.rectify

end DNDSR.Zones
