import Verif.Spec.ODE
import Verif.Props.Defines
import Mathlib.Tactic.Module
import Mathlib.Tactic.Ring
import Mathlib.Tactic.FieldSimp
import Mathlib.Tactic.Linarith
import Mathlib.Tactic.IntervalCases

/-!
# The ring buffer of the multistep integrators, the pseudo time loop
-/

namespace DNDSR.ODE

open DNDSR.IMap DNDSR.Defines Finset

set_option linter.unusedSectionVars false

variable {σ D K V : Type}

theorem cmod_emod (a b : Int) (hb : 0 < b) : cmod a b = .ok (a % b) := by
  obtain ⟨r, h, h0, h1, k, hk⟩ := cmod_spec a b hb
  rw [h, hk]
  congr 1
  rw [Int.mul_comm, Int.mul_add_emod_self_left]
  exact (Int.emod_eq_of_lt h0 h1).symm

theorem at'_ok {α : Type} (l : List α) (i : Int) (x : α) (h0 : 0 ≤ i) (h : l[i.toNat]? = some x) : at' l i = .ok x := by
  unfold at' idx; rw [if_neg (by omega), h]

theorem dualLoop_calls [One K] (cb : Callbacks σ D K V) (dt alpha ct : K) (stopId : Int) (resid : V → V → Res (V × V))
    (P : SolveCall K V → Prop) (hres : ∀ x f, ∃ q r, resid x f = .ok (q, r) ∧
      P { x := x, f := f, rhs := r, resOther := q, dt := dt, alpha := alpha, ct := ct })
    (n : Nat) (l : Loop σ K V) (hl : ∀ c ∈ l.calls, P c) :
    ∃ l', dualLoop cb dt alpha ct stopId resid n l = .ok l' ∧ ∀ c ∈ l'.calls, P c := by
  induction n generalizing l with
  | zero => exact ⟨l, rfl, hl⟩
  | succ n ih =>
    obtain ⟨q, r, hq, hP⟩ := hres l.x (cb.frhs (cb.fdt l.s l.x alpha 0).1 l.x (cb.fdt l.s l.x alpha 0).2 l.iter ct 0).2
    simp only [dualLoop, hq, Res.ok_bind, Res.pure_eq]
    split
    · refine ⟨_, rfl, ?_⟩
      intro c hc
      rcases List.mem_append.1 hc with hc | hc
      · exact hl c hc
      · rw [List.mem_singleton] at hc; subst hc; exact hP
    · apply ih
      intro c hc
      rcases List.mem_append.1 hc with hc | hc
      · exact hl c hc
      · rw [List.mem_singleton] at hc; subst hc; exact hP

theorem dualSolve_calls [One K] (cb : Callbacks σ D K V) (maxIter : Int) (dt alpha ct : K) (stopId : Int)
    (resid : V → V → Res (V × V)) (s : σ) (x rhs rhsbuf xinc : V)
    (P : SolveCall K V → Prop) (hres : ∀ x f, ∃ q r, resid x f = .ok (q, r) ∧
      P { x := x, f := f, rhs := r, resOther := q, dt := dt, alpha := alpha, ct := ct }) :
    ∃ l', dualSolve cb maxIter dt alpha ct stopId resid s x rhs rhsbuf xinc = .ok l' ∧ ∀ c ∈ l'.calls, P c := by
  obtain ⟨l, hl, hc⟩ := dualLoop_calls cb dt alpha ct stopId resid P hres maxIter.toNat
    { s := s, x := x, rhs := rhs, rhsbuf := rhsbuf, xinc := xinc, iter := 1, calls := [] } (by simp)
  unfold dualSolve
  rw [hl, Res.ok_bind]
  split
  · exact ⟨_, rfl, hc⟩
  · exact ⟨_, rfl, hc⟩

/-- the ring buffer holds the window `h` (newest first) of states and step sizes -/
structure Window (k : Int) (b : BDF K V) (h : List (V × K)) : Prop where
  k0 : 0 < k
  k4 : k ≤ 4
  kk : b.kBDF = k
  cn : b.cnPrev = min (h.length : Int) (k - 1)
  lx : (b.xPrevs.length : Int) = k - 1
  ld : (b.dtPrevs.length : Int) = k - 1
  s0 : 1 < k → 0 ≤ b.prevStart ∧ b.prevStart < k - 1
  xs : ∀ i : Nat, (i : Int) < b.cnPrev → b.xPrevs[(((i : Int) + b.prevStart) % (k - 1)).toNat]? = (h[i]?).map Prod.fst
  ds : ∀ i : Nat, (i : Int) < b.cnPrev → b.dtPrevs[(((i : Int) + b.prevStart) % (k - 1)).toNat]? = (h[i]?).map Prod.snd

theorem window_mk (k : Int) (hk0 : 0 < k) (hk4 : k ≤ 4) (x0 : V) (d0 : K) :
    ∃ b, mkBDF k x0 d0 = .ok b ∧ Window k b [] := by
  refine ⟨_, by unfold mkBDF; rw [Res.assert_true _ ⟨hk0, hk4⟩]; rfl, ?_⟩
  constructor <;> (try simp) <;> omega

theorem mod_step (p s i : Int) (hp : 0 < p) (hp3 : p ≤ 3) (h0 : 0 ≤ s) (h1 : s < p) (hi : 0 ≤ i) :
    (i + 1 + (s - 1) % p) % p = (i + s) % p := by
  have : p = 1 ∨ p = 2 ∨ p = 3 := by omega
  rcases this with rfl | rfl | rfl <;> omega

theorem mod_ne (p s i : Int) (hp : 0 < p) (hp3 : p ≤ 3) (h0 : 0 ≤ s) (h1 : s < p) (hi : 0 ≤ i) (hi' : i + 1 < p) :
    (i + s) % p ≠ (s - 1) % p := by
  have : p = 1 ∨ p = 2 ∨ p = 3 := by omega
  rcases this with rfl | rfl | rfl <;> omega

theorem window_push (k : Int) (b : BDF K V) (h : List (V × K)) (w : Window k b h) (dt : K) (x : V) :
    ∃ b', bdfPush b dt x = .ok b' ∧ Window k b' ((x, dt) :: h) := by
  obtain ⟨k0, k4, kk, cn, lx, ld, s0, xs, ds⟩ := w
  unfold bdfPush
  rw [kk]
  by_cases hk : k = 1
  · subst hk
    rw [if_neg (by simp)]
    refine ⟨b, rfl, ⟨by omega, by omega, kk, by simp at cn ⊢; omega, lx, ld, by omega, ?_, ?_⟩⟩ <;>
    · intro i hi; simp at cn; omega
  have s0' := s0 (by omega)
  have hb := Int.emod_nonneg (b.prevStart - 1) (show k - 1 ≠ 0 by omega)
  have hb' := Int.emod_lt_of_pos (b.prevStart - 1) (show 0 < k - 1 by omega)
  simp only [ne_eq, show k - 1 ≠ 0 by omega, not_false_eq_true, if_true]
  rw [cmod_emod _ _ (by omega), Res.ok_bind, if_neg (by omega)]
  refine ⟨_, rfl, ⟨k0, k4, rfl, ?_, by simpa using lx, by simpa using ld, fun _ => ⟨hb, hb'⟩, ?_, ?_⟩⟩
  · simp only [List.length_cons]; omega
  · intro i hi
    simp only at hi ⊢
    cases i with
    | zero =>
      rw [show ((0 : Nat) : Int) = 0 from rfl, Int.zero_add, Int.emod_emod_of_dvd _ (dvd_refl _), List.getElem?_set_self (by omega)]
      rfl
    | succ i =>
      rw [Nat.cast_succ, mod_step _ _ _ (by omega) (by omega) s0'.1 s0'.2 (by omega),
        List.getElem?_set_ne, xs i (by omega)]
      · simp
      · have := mod_ne (k - 1) b.prevStart i (by omega) (by omega) s0'.1 s0'.2 (by omega) (by push_cast at hi; omega)
        have := Int.emod_nonneg ((i : Int) + b.prevStart) (show k - 1 ≠ 0 by omega)
        omega
  · intro i hi
    simp only at hi ⊢
    cases i with
    | zero =>
      rw [show ((0 : Nat) : Int) = 0 from rfl, Int.zero_add, Int.emod_emod_of_dvd _ (dvd_refl _), List.getElem?_set_self (by omega)]
      rfl
    | succ i =>
      rw [Nat.cast_succ, mod_step _ _ _ (by omega) (by omega) s0'.1 s0'.2 (by omega),
        List.getElem?_set_ne, ds i (by omega)]
      · simp
      · have := mod_ne (k - 1) b.prevStart i (by omega) (by omega) s0'.1 s0'.2 (by omega) (by push_cast at hi; omega)
        have := Int.emod_nonneg ((i : Int) + b.prevStart) (show k - 1 ≠ 0 by omega)
        omega

section Field

variable [Field K] [AddCommGroup V] [Module K V]

/-- `Σ_{i<n} (w_{i+2}/dt) h_i` is what the loop over the previous states adds -/
theorem addPrevs_eq (coef : Int → Res K) (k : Int) (b : BDF K V) (h : List (V × K)) (w : Window k b h) (dt : K)
    (wt : Nat → K) (hw : ∀ i : Nat, (i : Int) < b.cnPrev → coef (2 + i) = .ok (wt i)) (acc : V) (n : Nat) (hn : (n : Int) ≤ b.cnPrev) :
    addPrevs coef b (k - 1) dt n acc =
      .ok (acc + ∑ i ∈ range n, (wt i / dt) • ((h[i]?).map Prod.fst).getD 0) := by
  induction n with
  | zero => simp [addPrevs]
  | succ n ih =>
    have hcn := w.cn
    have hx := w.xs n (by omega)
    have hnl : n < h.length := by omega
    rw [List.getElem?_eq_getElem hnl] at hx
    simp only [addPrevs]
    rw [ih (by omega), Res.ok_bind, cmod_emod _ _ (by omega), Res.ok_bind,
      at'_ok _ _ _ (Int.emod_nonneg _ (by omega)) hx, Res.ok_bind, hw n (by omega), Res.ok_bind]
    rw [sum_range_succ, List.getElem?_eq_getElem hnl]
    simp [add_assoc]

/-- the residual of a BDF step in terms of the window -/
theorem bdfResid_eq (coef : Int → Res K) (k : Int) (b : BDF K V) (h : List (V × K)) (w : Window k b h) (dt : K)
    (c0 c1 : K) (wt : Nat → K) (h0 : coef 0 = .ok c0) (h1 : coef 1 = .ok c1)
    (hw : ∀ i : Nat, (i : Int) < b.cnPrev → coef (2 + i) = .ok (wt i)) (xLast x f : V) :
    bdfResid coef b dt xLast x f = .ok
      ((c1 / dt) • xLast + ∑ i ∈ range b.cnPrev.toNat, (wt i / dt) • ((h[i]?).map Prod.fst).getD 0,
       ((c1 / dt) • xLast + ∑ i ∈ range b.cnPrev.toNat, (wt i / dt) • ((h[i]?).map Prod.fst).getD 0) - (1 / dt) • x + c0 • f) := by
  have hcn := w.cn
  have hk0 := w.k0
  unfold bdfResid
  rw [h1, Res.ok_bind]
  simp only [w.kk]
  by_cases hk : k = 1
  · have : b.cnPrev.toNat = 0 := by omega
    simp [hk, this, h0, sub_eq_add_neg, neg_div]
  · simp only [ne_eq, show k - 1 ≠ 0 by omega, not_false_eq_true, if_true]
    rw [addPrevs_eq coef k b h w dt wt hw _ _ (by omega), Res.ok_bind, h0, Res.ok_bind]
    simp [sub_eq_add_neg, neg_div]

theorem curve_pad (d q : Nat) (hd : d ≤ q) (a : Nat → V) (t : K) :
    curve d a t = curve q (fun i => if i ≤ d then a i else 0) t ∧
    curve' d a t = curve' q (fun i => if i ≤ d then a i else 0) t := by
  unfold curve curve'
  constructor
  all_goals
    rw [← sum_subset (range_mono (show d + 1 ≤ q + 1 by omega))]
    · refine sum_congr rfl fun i hi => ?_
      rw [mem_range] at hi
      simp only
      rw [if_pos (by omega)]
    · intro i _ hi
      rw [mem_range] at hi
      simp only
      rw [if_neg (by omega), smul_zero]

end Field
end DNDSR.ODE
