/-!
# Schedule of the persistent requests of a ghost communication

Models `initPersistentPull`/`Push`, `startPersistent…`, `waitPersistent…` of
`src/DNDS/ArrayTransformer.hpp:482-897` at the level of starts and waits of requests: which request, in
which order, on which rank.  The data moved is the subject of `Verif.Model.Transformer`.

MPI itself: starting a request never blocks; the `k`-th start of a receive matches the `k`-th start of the
corresponding send; waiting for a receive blocks until the matching send is started; waiting for a standard mode
send blocks until the matching receive is started, unless the library chose to buffer the message (`eager`).
-/

namespace DNDSR.Sched

/-- a persistent request: receive or send, and the other rank -/
structure Req where
  recv : Bool
  peer : Nat
  deriving DecidableEq, Repr

inductive Instr where
  | start (q : Req)
  | wait (q : Req)
  deriving DecidableEq, Repr

/-- `PullReqVec` after `initPersistentPull`, `src/DNDS/ArrayTransformer.hpp:549-606`: the receives of the ghost
rows come first, then the sends.  `pull`: the ranks of `pPullTypeVec`; `push`: of `pPushTypeVec`. -/
def pullReqs (pull push : List Nat) : List Req :=
  pull.map (fun r => ⟨true, r⟩) ++ push.map (fun r => ⟨false, r⟩)

/-- `PushReqVec` after `initPersistentPush`, `src/DNDS/ArrayTransformer.hpp:482-537`: the sends of the ghost
rows come first (`PushReqVec->data() + ip`), the receives behind them. -/
def pushReqs (pull push : List Nat) : List Req :=
  pull.map (fun r => ⟨false, r⟩) ++ push.map (fun r => ⟨true, r⟩)

/-- the waits of `src/DNDS/ArrayTransformer.hpp:797-806` and `866-877` with the one-by-one strategy: start
the first `m` requests, then start and wait for each other request, then wait for the first `m`. -/
def oneByOne (reqs : List Req) (m : Nat) : List Instr :=
  (reqs.take m).map .start ++ (reqs.drop m).flatMap (fun q => [.start q, .wait q]) ++ (reqs.take m).map .wait

/-- one pull on a rank with the one-by-one strategy; `nRecvPullReq` is the number of receives -/
def pullOneByOne (pull push : List Nat) : List Instr := oneByOne (pullReqs pull push) pull.length

/-- one push on a rank with the one-by-one strategy; `nRecvPushReq` is the number of receives, which is
the number of ranks of `pPushTypeVec` -/
def pushOneByOne (pull push : List Nat) : List Instr := oneByOne (pushReqs pull push) push.length

/-- the default strategy: `MPI_Startall` over all the requests, later wait for all the requests -/
def allAtOnce (reqs : List Req) : List Instr := reqs.map .start ++ reqs.map .wait

/-- a rank doing `N` communications one after the other -/
def rounds (N : Nat) (round : List Instr) : List Instr := (List.replicate N round).flatten

/-! ### execution -/

/-- how often rank `r` has started request `q` when it has executed `pc r` instructions -/
def started (prog : Nat → List Instr) (pc : Nat → Nat) (r : Nat) (q : Req) : Nat :=
  ((prog r).take (pc r)).count (.start q)

/-- the next instruction of rank `r` does not block; `eager r s k`: the library buffers the `k`-th
message from `r` to `s` -/
def CanPass (prog : Nat → List Instr) (eager : Nat → Nat → Nat → Bool) (pc : Nat → Nat) (r : Nat) : Instr → Prop
  | .start _ => True
  | .wait q =>
    if q.recv then started prog pc r q ≤ started prog pc q.peer ⟨false, r⟩
    else eager r q.peer (started prog pc r q) = true ∨ started prog pc r q ≤ started prog pc q.peer ⟨true, r⟩

/-- one rank executes one instruction -/
def Step (n : Nat) (prog : Nat → List Instr) (eager : Nat → Nat → Nat → Bool) (pc pc' : Nat → Nat) : Prop :=
  ∃ r ins, r < n ∧ (prog r)[pc r]? = some ins ∧ CanPass prog eager pc r ins ∧
    pc' = fun x => if x = r then pc r + 1 else pc x

/-- `Exec … k pc`: `pc` is reached after `k` steps in some interleaving of the ranks -/
inductive Exec (n : Nat) (prog : Nat → List Instr) (eager : Nat → Nat → Nat → Bool) : Nat → (Nat → Nat) → Prop
  | init : Exec n prog eager 0 (fun _ => 0)
  | step (k : Nat) (pc pc' : Nat → Nat) : Exec n prog eager k pc → Step n prog eager pc pc' →
      Exec n prog eager (k + 1) pc'

/-- every rank has executed its whole program -/
def Finished (n : Nat) (prog : Nat → List Instr) (pc : Nat → Nat) : Prop := ∀ r, r < n → pc r = (prog r).length

end DNDSR.Sched
