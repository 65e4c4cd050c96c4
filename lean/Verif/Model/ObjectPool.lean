import Verif.Model.Basic

/-!
# `DNDS::ObjectPool` (`src/DNDS/ObjectPool.hpp`)

A program that uses several pools and several handles.  Objects are numbered in the order of their
`make_unique` calls; `next` is the number of such calls so far.  A `unique_ptr` is an optional object
number, a `weak_ptr` to a pool an optional pool number.  Copies of an `ObjectPool` (which share the
pool) are not modelled: `destroyPool` releases the last owner.
-/

namespace DNDSR.Pool

/-- `ObjectPoolAllocated`, `src/DNDS/ObjectPool.hpp:39-41`; `dead` once destroyed -/
structure Handle where
  ptr : Option Nat
  pool : Option Nat
  dead : Bool
  deriving Repr, DecidableEq

/-- `struct Pool`, `src/DNDS/ObjectPool.hpp:17-24`: the recyclable objects, the last one is handed out
first; `alive` until the last owner is gone -/
structure PoolSt where
  objs : List Nat
  alive : Bool
  deriving Repr, DecidableEq

structure St where
  next : Nat
  pools : List PoolSt
  handles : List Handle
  deriving Repr, DecidableEq

def St.init : St := ⟨0, [], []⟩

inductive Op where
  | newPool
  | destroyPool (p : Nat)
  | resize (p n : Nat)
  | get (p : Nat)
  | getAlloc (p : Nat)
  | moveCtor (h : Nat)
  | moveAssign (d s : Nat)
  | drop (h : Nat)
  deriving Repr, DecidableEq

/-- a pool that exists; anything else is a use after destruction -/
def livePool (s : St) (p : Nat) : Res PoolSt :=
  match s.pools[p]? with
  | some q => if q.alive then .ok q else .ub
  | none => .ub

/-- a handle that has not been destroyed -/
def liveHandle (s : St) (h : Nat) : Res Handle :=
  match s.handles[h]? with
  | some x => if x.dead then .ub else .ok x
  | none => .ub

/-- `_pool.back()` and `pop_back()` into a new handle of pool `p`, `src/DNDS/ObjectPool.hpp:97-102` -/
def take (s : St) (p : Nat) (q : PoolSt) : Option St :=
  match q.objs.getLast? with
  | some o => some ⟨s.next, s.pools.set p { q with objs := q.objs.dropLast }, s.handles ++ [⟨some o, some p, false⟩]⟩
  | none => none

/-- Models the members of `ObjectPool` and `ObjectPoolAllocated`. -/
def step (s : St) : Op → Res St
  /- the constructor, `src/DNDS/ObjectPool.hpp:28-31` -/
  | .newPool => .ok { s with pools := s.pools ++ [⟨[], true⟩] }
  /- the destructor of the last owner of `pPool`: the objects in the pool are destroyed -/
  | .destroyPool p => do
    let _ ← livePool s p
    .ok { s with pools := s.pools.set p ⟨[], false⟩ }
  /- `resize` and `resizeInit`, `src/DNDS/ObjectPool.hpp:72-94` -/
  | .resize p n => do
    let q ← livePool s p
    .ok { s with next := s.next + n, pools := s.pools.set p { q with objs := List.range' s.next n } }
  /- `get`, `src/DNDS/ObjectPool.hpp:96-105` -/
  | .get p => do
    let q ← livePool s p
    match take s p q with
    | some s' => .ok s'
    | none => .ok { s with handles := s.handles ++ [⟨none, some p, false⟩] }
  /- `getAlloc` and `getAllocInit`, `src/DNDS/ObjectPool.hpp:107-132` -/
  | .getAlloc p => do
    let q ← livePool s p
    match take s p q with
    | some s' => .ok s'
    | none => .ok { s with next := s.next + 1, handles := s.handles ++ [⟨some s.next, some p, false⟩] }
  /- the move constructor, `src/DNDS/ObjectPool.hpp:50-54` -/
  | .moveCtor h => do
    let x ← liveHandle s h
    .ok { s with handles := s.handles.set h ⟨none, none, false⟩ ++ [x] }
  /- the move assignment, `src/DNDS/ObjectPool.hpp:55-59`: `unique_ptr`'s assignment destroys the object
  held so far; self-move changes nothing -/
  | .moveAssign d r => do
    let _ ← liveHandle s d
    let x ← liveHandle s r
    if d = r then .ok s else
      .ok { s with handles := (s.handles.set r ⟨none, none, false⟩).set d x }
  /- the destructor, `src/DNDS/ObjectPool.hpp:64-69` -/
  | .drop h => do
    let x ← liveHandle s h
    let handles := s.handles.set h ⟨none, none, true⟩
    match x.ptr, x.pool with
    | some o, some p =>
      match s.pools[p]? with
      | some q =>
        if q.alive then .ok { s with pools := s.pools.set p { q with objs := q.objs ++ [o] }, handles }
        else .ok { s with handles }
      | none => .ok { s with handles }
    | _, _ => .ok { s with handles }

def run (s : St) : List Op → Res St
  | [] => .ok s
  | o :: os => do
    let s' ← step s o
    run s' os

end DNDSR.Pool
