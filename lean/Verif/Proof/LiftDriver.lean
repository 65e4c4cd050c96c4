import Verif.Spec.LiftDriver
import Mathlib.Data.List.Rotate
import Mathlib.Algebra.BigOperators.Group.List.Basic
import Mathlib.Tactic.Linarith

/-!
# The ring of lifts holds the last ones
-/

namespace DNDSR.Lift

/-- the last `W` lifts, completed by the mark of a missing one -/
noncomputable def pad (W : Nat) (r : List ℝ) : List ℝ := (r ++ List.replicate W veryLarge).take W

theorem pad_length (W : Nat) (r : List ℝ) : (pad W r).length = W := by
  simp [pad]

theorem pad_full {W : Nat} {r : List ℝ} (h : W ≤ r.length) : pad W r = r.take W := by
  rw [pad, List.take_append_of_le_length h]

theorem pad_nil (W : Nat) : pad W [] = List.replicate W veryLarge := by simp [pad]

theorem set_rotate {l : List ℝ} {k : Nat} (x : ℝ) (h : k < l.length) : (l.set k x).rotate k = x :: (l.rotate k).tail := by
  rw [List.rotate_eq_drop_append_take (by simpa using h.le), List.rotate_eq_drop_append_take h.le, List.take_set_of_le le_rfl,
    List.drop_eq_getElem_cons (by simpa using h)]
  simp [List.drop_set]
  rw [List.drop_eq_getElem_cons h]
  rfl

/-- what the ring holds -/
structure Ring (W : Nat) (st : State) (r : List ℝ) : Prop where
  len : st.hist.length = W
  head : st.head < W
  size : st.size = r.length
  ring : st.hist.rotate (st.head + 1) = (pad W r).reverse

theorem ring_push {W : Nat} {st : State} {r : List ℝ} (h : Ring W st r) (x : ℝ) : Ring W (push st x) (x :: r) := by
  have hW : 0 < W := by have := h.head; omega
  have hk : (st.head + 1) % W < W := Nat.mod_lt _ hW
  refine ⟨by simp [push, h.len], by simpa [push, h.len] using hk, by simp [push, h.size], ?_⟩
  have h1 : st.hist.rotate ((st.head + 1) % W) = (pad W r).reverse := by
    have e := List.rotate_mod st.hist (st.head + 1)
    rw [h.len] at e
    rw [e]; exact h.ring
  simp only [push, h.len]
  rw [← List.rotate_rotate, set_rotate x (by rw [h.len]; exact hk), h1, List.rotate_cons_succ, List.rotate_zero]
  obtain ⟨V, rfl⟩ : ∃ V, W = V + 1 := ⟨W - 1, by omega⟩
  have hp : pad (V + 1) (x :: r) = x :: (pad (V + 1) r).take V := by
    simp only [pad, List.cons_append, List.take_succ_cons, List.take_take]
    congr 1
    simp
  have hq : (pad (V + 1) r).reverse.tail = ((pad (V + 1) r).take V).reverse := by
    rw [List.tail_reverse, List.dropLast_eq_take, pad_length]
    rfl
  rw [hp, List.reverse_cons, hq]

theorem ring_clear {W : Nat} {st : State} {r : List ℝ} (h : Ring W st r) : Ring W (clear st) [] := by
  have := h.head
  refine ⟨by simp [clear, h.len], by simp [clear]; omega, rfl, ?_⟩
  simp [clear, h.len, pad_nil]

/-- a full ring holds the last lifts, in some order -/
theorem ring_perm {W : Nat} {st : State} {r : List ℝ} (h : Ring W st r) (hr : W ≤ r.length) : st.hist.Perm (r.take W) := by
  have h1 := List.rotate_perm st.hist (st.head + 1)
  rw [h.ring, pad_full hr] at h1
  exact h1.symm.trans (List.reverse_perm _)

theorem foldl_max_le (l : List ℝ) (a t : ℝ) : l.foldl max a ≤ t ↔ a ≤ t ∧ ∀ x ∈ l, x ≤ t := by
  induction l generalizing a with
  | nil => simp
  | cons b l ih => simp only [List.foldl_cons, ih, max_le_iff, List.forall_mem_cons]; tauto

theorem le_foldl_min (l : List ℝ) (a t : ℝ) : t ≤ l.foldl min a ↔ t ≤ a ∧ ∀ x ∈ l, t ≤ x := by
  induction l generalizing a with
  | nil => simp
  | cons b l ih => simp only [List.foldl_cons, ih, le_min_iff, List.forall_mem_cons]; tauto

/-- the deviation is the largest distance from the mean -/
theorem dev_le {l : List ℝ} (hl : l ≠ []) (c t : ℝ) : max (maxCoeff l - c) (c - minCoeff l) ≤ t ↔ ∀ x ∈ l, |x - c| ≤ t := by
  obtain ⟨a, l, rfl⟩ := List.exists_cons_of_ne_nil hl
  have h1 : maxCoeff (a :: l) - c ≤ t ↔ ∀ x ∈ a :: l, x ≤ t + c := by
    rw [sub_le_iff_le_add, maxCoeff, foldl_max_le, List.forall_mem_cons]
  have h2 : c - minCoeff (a :: l) ≤ t ↔ ∀ x ∈ a :: l, c - t ≤ x := by
    rw [sub_le_comm, minCoeff, le_foldl_min, List.forall_mem_cons]
  rw [max_le_iff, h1, h2]
  constructor
  · intro h x hx
    rw [abs_le]
    have := h.1 x hx
    have := h.2 x hx
    constructor <;> linarith
  · intro h
    refine ⟨fun x hx => ?_, fun x hx => ?_⟩ <;>
    · have := abs_le.1 (h x hx)
      linarith [this.1, this.2]

/-- what the state is after the calls of a log -/
structure Inv (s : Settings) (st : State) (log : List Entry) : Prop where
  ring : Ring s.window.toNat st (since log)
  aoa : st.aoa = angle s log
  lastCL : st.lastCL = match lastMsg log with | none => veryLarge | some m => m.cl
  lastAOA : st.lastAOA = match lastMsg log with | none => some veryLarge | some _ => angle s (before log)
  acc : st.acc = atTarget s log

theorem since_none (log : List Entry) (x : ℝ) : since ((x, none) :: log) = x :: since log := by simp [since]
theorem since_some (log : List Entry) (x : ℝ) (m : Msg) : since ((x, some m) :: log) = [] := by simp [since]
theorem lastMsg_none (log : List Entry) (x : ℝ) : lastMsg ((x, none) :: log) = lastMsg log := by simp [lastMsg]
theorem lastMsg_some (log : List Entry) (x : ℝ) (m : Msg) : lastMsg ((x, some m) :: log) = some m := by simp [lastMsg]
theorem before_none (log : List Entry) (x : ℝ) : before ((x, none) :: log) = before log := by simp [before]
theorem before_some (log : List Entry) (x : ℝ) (m : Msg) : before ((x, some m) :: log) = log := by simp [before]
theorem angle_none (s : Settings) (log : List Entry) (x : ℝ) : angle s ((x, none) :: log) = angle s log := by rw [angle, lastMsg_none, angle]
theorem angle_some (s : Settings) (log : List Entry) (x : ℝ) (m : Msg) : angle s ((x, some m) :: log) = m.aoa := by rw [angle, lastMsg_some]
theorem atTarget_some (s : Settings) (log : List Entry) (x : ℝ) (m : Msg) : atTarget s ((x, some m) :: log) = 0 := by simp [atTarget]
open Classical in
theorem atTarget_none (s : Settings) (log : List Entry) (x : ℝ) :
    atTarget s ((x, none) :: log) = if |s.targetCL - x| ≤ (s.longThreshold : ℝ) then atTarget s log + 1 else 0 := by
  unfold atTarget
  rw [List.takeWhile_cons]
  by_cases h : |s.targetCL - x| ≤ (s.longThreshold : ℝ) <;> simp [h]

/-- when the driver changes the angle -/
def Moves (s : Settings) (log : List Entry) (iter : Int) (x : ℝ) : Prop :=
  s.startDrive ≤ iter ∧ s.window ≤ ((since log).length + 1 : Nat) ∧ s.convergeMin ≤ ((since log).length + 1 : Nat) ∧
    Steady s log ((x :: since log).take s.window.toNat)

open Classical in
/-- one call -/
theorem update_eq {s : Settings} (hs : Sane s) {st : State} {log : List Entry} (h : Inv s st log) (iter : Int) (x : ℝ) :
    (update s st iter x).2 = (if Moves s log iter x then
      some ⟨iter, mean ((x :: since log).take s.window.toNat), clSlope st.lastCL st.lastAOA x st.aoa,
        newAngle s st.aoa x (clSlope st.lastCL st.lastAOA x st.aoa)⟩ else none) ∧
    Inv s (update s st iter x).1 ((x, (update s st iter x).2) :: log) := by
  have hr := ring_push h.ring x
  have hw := hs.window
  -- the state after the lift is stored
  set st' : State := { push st x with acc := if |s.targetCL - x| ≤ (s.longThreshold : ℝ) then (push st x).acc + 1 else 0 } with hst
  have hr' : Ring s.window.toNat st' (x :: since log) := ⟨hr.len, hr.head, hr.size, hr.ring⟩
  have e1 : st'.aoa = st.aoa := rfl
  have e2 : st'.lastCL = st.lastCL := rfl
  have e3 : st'.lastAOA = st.lastAOA := rfl
  have hkeep : Inv s st' ((x, none) :: log) := by
    refine ⟨by rw [since_none]; exact hr', ?_, ?_, ?_, ?_⟩
    · rw [angle_none, e1, h.aoa]
    · rw [lastMsg_none, e2, h.lastCL]
    · rw [lastMsg_none, before_none, e3, h.lastAOA]
    · rw [atTarget_none, ← h.acc]
      rfl
  have hu : update s st iter x = (if iter < s.startDrive then (st', none)
      else if st'.size ≥ st'.hist.length ∧ (st'.size : Int) ≥ s.convergeMin then
        if max (maxCoeff st'.hist - st'.hist.sum / st'.hist.length) (st'.hist.sum / st'.hist.length - minCoeff st'.hist) ≤
            min s.threshold (|s.targetCL - st'.lastCL| * s.ratio) then
          (clear { st' with lastAOA := st'.aoa, lastCL := st'.hist.sum / st'.hist.length, aoa := newAngle s st'.aoa x (clSlope st'.lastCL st'.lastAOA x st'.aoa), acc := 0 },
            some ⟨iter, st'.hist.sum / st'.hist.length, clSlope st'.lastCL st'.lastAOA x st'.aoa, newAngle s st'.aoa x (clSlope st'.lastCL st'.lastAOA x st'.aoa)⟩)
        else (st', none)
      else (st', none)) := rfl
  rw [hu]
  by_cases h1 : iter < s.startDrive
  · rw [if_pos h1, if_neg (fun hm => by have := hm.1; omega)]
    exact ⟨rfl, hkeep⟩
  rw [if_neg h1]
  have hsz : st'.size = (since log).length + 1 := by rw [hr'.size]; rfl
  by_cases h2 : st'.size ≥ st'.hist.length ∧ (st'.size : Int) ≥ s.convergeMin
  swap
  · rw [if_neg h2, if_neg (fun hm => h2 ?_)]
    · exact ⟨rfl, hkeep⟩
    · rw [hr'.len, hsz]
      exact ⟨by have := hm.2.1; omega, hm.2.2.1⟩
  rw [if_pos h2]
  have hlen : s.window.toNat ≤ (x :: since log).length := by
    have := h2.1
    rw [hr'.len, hsz] at this
    simpa using this
  have hp := ring_perm hr' hlen
  have hmean : st'.hist.sum / st'.hist.length = mean ((x :: since log).take s.window.toNat) := by
    rw [mean, hp.sum_eq, hp.length_eq]
  have hne : st'.hist ≠ [] := by
    intro e
    have := hr'.len
    rw [e] at this
    simp at this
    omega
  have hsteady : (max (maxCoeff st'.hist - st'.hist.sum / st'.hist.length) (st'.hist.sum / st'.hist.length - minCoeff st'.hist) ≤
            min s.threshold (|s.targetCL - st'.lastCL| * s.ratio)) ↔ Steady s log ((x :: since log).take s.window.toNat) := by
    rw [dev_le hne, hmean, e2, h.lastCL]
    unfold Steady
    constructor
    · intro hd y hy
      have hy' := le_min_iff.1 (hd y (hp.mem_iff.2 hy))
      refine ⟨hy'.1, fun m hm => ?_⟩
      have := hy'.2
      rw [hm] at this
      rw [mul_comm]
      exact this
    · intro hd y hy
      obtain ⟨a, b⟩ := hd y (hp.mem_iff.1 hy)
      refine le_min a ?_
      cases hm : lastMsg log with
      | none => exact a.trans hs.far
      | some m => rw [mul_comm]; exact b m hm
  by_cases h3 : Steady s log ((x :: since log).take s.window.toNat)
  swap
  · rw [if_neg (fun e => h3 (hsteady.1 e)), if_neg (fun hm => h3 hm.2.2.2)]
    exact ⟨rfl, hkeep⟩
  have hmv : Moves s log iter x := ⟨by omega, by have := h2.1; rw [hr'.len, hsz] at this; omega, by have := h2.2; rw [hsz] at this; exact this, h3⟩
  rw [if_pos (hsteady.2 h3), if_pos hmv, hmean]
  refine ⟨rfl, ?_, ?_, ?_, ?_, ?_⟩
  · rw [since_some]
    refine ring_clear (r := x :: since log) ⟨hr'.len, hr'.head, hr'.size, hr'.ring⟩
  · rw [angle_some]; rfl
  · rw [lastMsg_some]; rfl
  · rw [lastMsg_some, before_some]; exact h.aoa
  · rw [atTarget_some]; rfl

theorem construct_inv {s : Settings} {st : State} (h : construct s = .ok st) : Inv s st [] := by
  simp only [construct, Res.bind_ok_iff, Res.assert_ok_iff] at h
  obtain ⟨_, _, _, _, _, _, _, hw, h⟩ := h
  cases h
  refine ⟨⟨by simp, by show (0 : Nat) < _; omega, rfl, ?_⟩, rfl, rfl, rfl, rfl⟩
  simp [since, pad_nil]

theorem run_inv {s : Settings} (hs : Sane s) {st : State} (h : construct s = .ok st) (xs : List (Int × ℝ)) : Inv s (run s st xs).1 (run s st xs).2 := by
  induction xs with
  | nil => exact construct_inv h
  | cons x xs ih => exact (update_eq hs ih x.1 x.2).2

end DNDSR.Lift
