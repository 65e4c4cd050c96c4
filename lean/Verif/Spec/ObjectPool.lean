import Verif.Model.ObjectPool

/-! # What an object pool has to guarantee (C14) -/

namespace DNDSR.Pool

/-- handle `h` holds object `o` -/
def Holds (s : St) (h o : Nat) : Prop := ∃ x, s.handles[h]? = some x ∧ x.ptr = some o

/-- object `o` waits in pool `p` -/
def Waits (s : St) (p o : Nat) : Prop := ∃ q, s.pools[p]? = some q ∧ o ∈ q.objs

def poolSize (s : St) (p : Nat) : Nat := (s.pools[p]?.map (fun q => q.objs.length)).getD 0

/-- number of handles that hold an object and give it back to `p` -/
def heldFor (s : St) (p : Nat) : Nat :=
  s.handles.countP (fun x => decide (x.pool = some p ∧ x.ptr.isSome))

/-- objects created for pool `p` by one operation -/
def made (p : Nat) (s : St) : Op → Nat
  | .resize q n => if q = p then n else 0
  | .getAlloc q => if q = p ∧ poolSize s q = 0 then 1 else 0
  | _ => 0

def madeBy (p : Nat) (s : St) : List Op → Nat
  | [] => 0
  | o :: os => made p s o + (match step s o with
    | .ok s' => madeBy p s' os
    | _ => 0)

/-- the operation does not move-assign over a handle that holds an object, does not resize `p` while
it has objects, and does not destroy `p` -/
def Gentle (p : Nat) (s : St) : Op → Prop
  | .moveAssign d r => d = r ∨ ∀ o, ¬ Holds s d o
  | .resize q _ => q = p → poolSize s p = 0
  | .destroyPool q => q ≠ p
  | _ => True

def GentleRun (p : Nat) (s : St) : List Op → Prop
  | [] => True
  | o :: os => Gentle p s o ∧ ∀ s', step s o = .ok s' → GentleRun p s' os

end DNDSR.Pool
