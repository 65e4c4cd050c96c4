import Verif.Model.CommSchedule

/-!
# Specification for C53
-/

namespace DNDSR.Sched

/-- A communication pattern among `n` ranks: `r` pulls from the ranks `pull r` and is pulled from by the ranks
`push r`; both sides know of each other (C06). -/
structure Pattern (n : Nat) (pull push : Nat → List Nat) : Prop where
  pullLt : ∀ r, r < n → ∀ s, s ∈ pull r → s < n
  pushLt : ∀ r, r < n → ∀ s, s ∈ push r → s < n
  pullNodup : ∀ r, r < n → (pull r).Nodup
  pushNodup : ∀ r, r < n → (push r).Nodup
  agree : ∀ r s, r < n → s < n → (s ∈ pull r ↔ r ∈ push s)

/-- Every execution comes to an end, with every rank having executed its whole program: it never gets stuck
and never takes more steps than there are instructions. -/
def Completes (n : Nat) (prog : Nat → List Instr) (eager : Nat → Nat → Nat → Bool) : Prop :=
  ∀ k pc, Exec n prog eager k pc →
    k ≤ ((List.range n).map (fun r => (prog r).length)).sum ∧
    (Finished n prog pc ∨ ∃ pc', Step n prog eager pc pc')

/-- a request is never started while it is active: between two starts of it there is a wait for it -/
def StartsIdle (prog : List Instr) : Prop :=
  ∀ (i j : Nat) (q : Req), i < j → prog[i]? = some (.start q) → prog[j]? = some (.start q) →
    ∃ k : Nat, i < k ∧ k < j ∧ prog[k]? = some (.wait q)

/-- every start is waited for -/
def AllWaited (prog : List Instr) : Prop :=
  ∀ (i : Nat) (q : Req), prog[i]? = some (.start q) → ∃ k : Nat, i < k ∧ prog[k]? = some (.wait q)

end DNDSR.Sched
