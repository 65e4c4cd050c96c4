import Verif.Model.Serializer
import Verif.Spec.Defines

/-!
# Specification vocabulary for the serializers (C15, C17, C18, C19)
-/

namespace DNDSR.Ser

open DNDSR.Defines

/-! ## C15 -/

/-- a location: the names leading to it from the root -/
abbrev Loc := List (List Char)

/-- the text of a location: a slash before each name -/
def render (l : Loc) : List Char := (l.map (fun n => '/' :: n)).flatten

/-- `p` is made of the slash-free `parts`, joined by slashes (every string is, in exactly one way) -/
structure Parts (p : List Char) (parts : List (List Char)) : Prop where
  ne : parts ≠ []
  noSlash : ∀ q ∈ parts, '/' ∉ q
  text : p = joinWith '/' parts

/-- the location that path `p` means when standing at `cur`: a path that is empty or starts with a slash
is absolute; repeated and trailing slashes mean nothing -/
inductive Lands (cur : Loc) (p : List Char) : Loc → Prop where
  | abs {parts : List (List Char)} : Parts p parts → (p = [] ∨ p.head? = some '/') →
      Lands cur p (parts.filter (fun q => decide (q ≠ [])))
  | rel {parts : List (List Char)} : Parts p parts → p ≠ [] → p.head? ≠ some '/' →
      Lands cur p (cur ++ parts.filter (fun q => decide (q ≠ [])))

/-- a serializer after some history of path calls, together with the location that history means -/
inductive History : JSt → Loc → Prop where
  | start : History JSt.open []
  | create {s : JSt} {l : Loc} (p : List Char) : History s l → History (createPath s p) l
  | go {s s' : JSt} {l l' : Loc} (p : List Char) : History s l → goToPath s p = .ok s' → Lands l p l' →
      History s' l'

/-- the way every `WriteSerializer` uses paths: create a sub-location, enter it, write (possibly further
sub-locations), and return to the path remembered on entry -/
inductive Prog where
  | done
  | block (name : List Char) (inner rest : Prog)
  deriving Repr

def Prog.run : Prog → JSt → Res JSt
  | .done, s => .ok s
  | .block n inner rest, s => do
    let cwd := getCurrentPath s
    let s1 ← goToPath (createPath s n) n
    let s2 ← inner.run s1
    let s3 ← goToPath s2 cwd
    rest.run s3

/-- all names used are relative paths -/
def Prog.Relative : Prog → Prop
  | .done => True
  | .block n inner rest => n ≠ [] ∧ n.head? ≠ some '/' ∧ inner.Relative ∧ rest.Relative

/-! ## C17 -/

/-- what is assumed of zlib: an output buffer of `compressBound n` bytes always suffices; whenever
compression succeeds, decompression into a buffer of the original size gives the original bytes, and
the compressed form is a byte string -/
structure ZlibOk (zl : Zlib) : Prop where
  enough : ∀ cap x, compressBound x.length ≤ cap → (∀ b ∈ x, b < 256) → (zl.deflate cap x).isSome
  bytes : ∀ cap x y, zl.deflate cap x = some y → ∀ b ∈ y, b < 256
  inverse : ∀ cap x y, zl.deflate cap x = some y → zl.inflate x.length y = some x

/-! ## C18 -/

/-- a shared write: under path `p`, the vector at address `a`, whose contents then are `v` -/
structure Wr (P V : Type) where
  p : P
  a : Nat
  v : V

def runWrites {P V : Type} [DecidableEq P] (ws : List (Wr P V)) : WSt P V :=
  ws.foldl (fun s w => writeShared s w.p w.a w.v) ⟨[], []⟩

/-- read path `p` into variable `x`, for a list of such calls -/
def runReads {P V : Type} [DecidableEq P] (doc : List (P × Entry P V)) : List (Nat × P) → RSt P V → Res (RSt P V)
  | [], s => .ok s
  | (x, p) :: rs, s => do
    let s' ← readShared doc s x p
    runReads doc rs s'

/-- a reader that has read nothing -/
def RSt.fresh {P V : Type} : RSt P V := ⟨[], fun _ => none, []⟩

/-- the vector variable `x` holds -/
def RSt.contents {P V : Type} (s : RSt P V) (x : Nat) : Option V := (s.vars x).bind (fun o => s.objs[o]?)

/-! ## C19 -/

/-- the size written by rank `r` -/
def sizeOf {α : Type} (locals : List (List α)) (r : Nat) : Nat := (locals[r]?.getD []).length

/-- every rank of the communicator, and nobody else, takes part in the collective write, in some order -/
def Schedule (nproc : Nat) (order : List Nat) : Prop := ∀ r, r ∈ order ↔ r < nproc

end DNDSR.Ser
