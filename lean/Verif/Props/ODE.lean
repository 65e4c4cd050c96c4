import Verif.Proof.ODEBdf
import Mathlib.Algebra.Order.Ring.Rat
import Mathlib.Tactic.NormNum

/-!
# Multistep integrators and bisection (C31, C34, C35)

`bdfStep` and `vbdfStep` model the `Step` functions of the BDF integrators, `bisectSolveLower` the bisection.  A `SolveCall` is
what the implicit solver callback is given; the specification (`curve`, `bdfFormula`, `SolveCall.Solves`) is in `Verif.Spec.ODE`.
-/

namespace DNDSR.ODE

open DNDSR.IMap DNDSR.Defines Finset

variable {σ D K V : Type} [Field K] [LinearOrder K] [IsStrictOrderedRing K] [AddCommGroup V] [Module K V]

/-! ## C34 -/

/-- the states the first `n + 1` steps started from, the newest first -/
def statesUpTo (ins : List (StepIn σ D K V)) (n : Nat) : List V := ((ins.take (n + 1)).map StepIn.x).reverse

omit [LinearOrder K] [IsStrictOrderedRing K] [AddCommGroup V] [Module K V] [Field K] in
theorem runSteps_spec (step : StepIn σ D K V → BDF K V → σ → Res (BDF K V × Loop σ K V)) (k : Int)
    (Hd : K → Prop) (P : List (V × K) → StepIn σ D K V → Loop σ K V → Prop)
    (hstep : ∀ b h i s, Window k b h → (∀ p ∈ h, Hd p.2) → Hd i.dt →
      ∃ b' l, step i b s = .ok (b', l) ∧ Window k b' ((i.x, i.dt) :: h) ∧ P h i l)
    (ins : List (StepIn σ D K V)) (hins : ∀ i ∈ ins, Hd i.dt) (b : BDF K V) (h : List (V × K)) (hh : ∀ p ∈ h, Hd p.2)
    (w : Window k b h) (s : σ) :
    ∃ b' ls, runSteps step ins b s = .ok (b', ls) ∧ ls.length = ins.length ∧
      ∀ (n : Nat) i l, ins[n]? = some i → ls[n]? = some l →
        P ((((ins.take n).map fun j => (j.x, j.dt)).reverse) ++ h) i l := by
  induction ins generalizing b h s with
  | nil => exact ⟨b, [], rfl, rfl, by simp⟩
  | cons i is ih =>
    obtain ⟨b1, l, h1, w1, p1⟩ := hstep b h i s w hh (hins i (by simp))
    obtain ⟨b2, ls, h2, hl, p2⟩ := ih (fun j hj => hins j (by simp [hj])) b1 ((i.x, i.dt) :: h)
      (by simpa using ⟨hins i (by simp), fun a b hab => hh (a, b) hab⟩) w1 l.s
    refine ⟨b2, l :: ls, ?_, by simp [hl], ?_⟩
    · simp only [runSteps]
      rw [h1, Res.ok_bind]
      simp only
      rw [h2, Res.ok_bind]
      rfl
    · intro n j m hj hm
      cases n with
      | zero =>
        simp only [List.getElem?_cons_zero, Option.some.injEq] at hj hm
        subst hj hm
        simpa using p1
      | succ n =>
        simp only [List.getElem?_cons_succ] at hj hm
        have := p2 n j m hj hm
        simpa using this

omit [LinearOrder K] [IsStrictOrderedRing K] [AddCommGroup V] [Module K V] [Field K] in
theorem take_states (ins : List (StepIn σ D K V)) (n : Nat) (i : StepIn σ D K V) (hi : ins[n]? = some i) :
    statesUpTo ins n = i.x :: (((ins.take n).map fun j => (j.x, j.dt)).reverse).map Prod.fst := by
  unfold statesUpTo
  rw [List.take_add_one, hi]
  simp [Function.comp_def]

/-- C34, constant step.  For every order `k` the integrator accepts, every number of steps of the same positive size, and every
state, solver and right-hand side at each of them: each step succeeds and every equation handed to the solver in step `n`
(counting from 0) combines, with the BDF formula of order `min (n+1) k`, exactly the states the current and the previous steps
started from, in order of age. -/
theorem bdf_history (k : Int) (hk0 : 0 < k) (hk4 : k ≤ 4) (x0 : V) (d0 : K) (s : σ) (dt : K) (hdt : 0 < dt)
    (ins : List (StepIn σ D K V)) (hins : ∀ i ∈ ins, i.dt = dt) :
    ∃ b0, mkBDF k x0 d0 = .ok b0 ∧
    ∃ b ls, runSteps (fun i b s => bdfStep i.cb i.maxIter i.dt b s i.x i.xinc) ins b0 s = .ok (b, ls) ∧
      ls.length = ins.length ∧
      ∀ (n : Nat) (i : StepIn σ D K V) (l : Loop σ K V), ins[n]? = some i → ls[n]? = some l →
        Starts l i.x i.maxIter ∧
        ∀ c ∈ l.calls, c.ct = 1 ∧ c.Solves dt (((bdfFormula K (min (n + 1) k.toNat))[0]?).getD 0)
          ((1 / dt) • weighted (bdfFormula K (min (n + 1) k.toNat)) (statesUpTo ins n)) := by
  obtain ⟨b0, hb0, w0⟩ := window_mk (K := K) k hk0 hk4 x0 d0
  refine ⟨b0, hb0, ?_⟩
  obtain ⟨b, ls, hr, hl, hp⟩ := runSteps_spec (fun i b s => bdfStep i.cb i.maxIter i.dt b s i.x i.xinc) k (fun d => d = dt)
    (fun h i l => Starts l i.x i.maxIter ∧ ∀ c ∈ l.calls, c.ct = 1 ∧
      c.Solves dt (((bdfFormula K (min (h.length + 1) k.toNat))[0]?).getD 0)
        ((1 / dt) • weighted (bdfFormula K (min (h.length + 1) k.toNat)) (i.x :: h.map Prod.fst)))
    (by
      intro b h i s w hh hi
      obtain ⟨b', l, h1, h2, h3, h4⟩ := bdfStep_spec k b h w dt hdt hh i.cb i.maxIter s i.x i.xinc
      refine ⟨b', l, ?_, ?_, h3, h4⟩
      · rw [hi]; exact h1
      · rw [hi]; exact h2)
    ins hins b0 [] (by simp) w0 s
  refine ⟨b, ls, hr, hl, ?_⟩
  intro n i l hi hn
  have hlen : n < ins.length := by
    rw [List.getElem?_eq_some_iff] at hi; exact hi.1
  have := hp n i l hi hn
  rw [List.append_nil, ← take_states ins n i hi] at this
  simpa [Nat.min_eq_left (Nat.le_of_lt hlen)] using this

/-- the formula for step `n` of a variable step run of order at most `k` -/
def vbdfFormulaOf (k : Int) (ins : List (StepIn σ D K V)) (n : Nat) (dt : K) : List K :=
  match n with
  | 0 => [1, 1]
  | m + 1 => if k = 1 then [1, 1] else
    match ins[m]? with
    | some j => vbdfFormula j.dt dt
    | none => []

/-- C34, variable step.  The same for the variable step integrator and every sequence of positive step sizes: the second order
formula for the pair (previous step size, current step size) is used as soon as there is a previous step. -/
theorem vbdf_history (k : Int) (hk0 : 0 < k) (hk2 : k ≤ 2) (x0 : V) (d0 : K) (s : σ)
    (ins : List (StepIn σ D K V)) (hins : ∀ i ∈ ins, 0 < i.dt) :
    ∃ b0, mkVBDF k x0 d0 = .ok b0 ∧
    ∃ b ls, runSteps (fun i b s => vbdfStep i.cb i.maxIter i.dt b s i.x i.xinc) ins b0 s = .ok (b, ls) ∧
      ls.length = ins.length ∧
      ∀ (n : Nat) (i : StepIn σ D K V) (l : Loop σ K V), ins[n]? = some i → ls[n]? = some l →
        Starts l i.x i.maxIter ∧
        ∀ c ∈ l.calls, c.ct = 1 ∧ c.Solves i.dt (((vbdfFormulaOf k ins n i.dt)[0]?).getD 0)
          ((1 / i.dt) • weighted (vbdfFormulaOf k ins n i.dt) (statesUpTo ins n)) := by
  obtain ⟨b0, hb0, w0⟩ := window_mk (K := K) k hk0 (by omega) x0 d0
  refine ⟨b0, by unfold mkVBDF; rw [hb0, Res.ok_bind, Res.assert_true _ hk2]; rfl, ?_⟩
  obtain ⟨b, ls, hr, hl, hp⟩ := runSteps_spec (fun i b s => vbdfStep i.cb i.maxIter i.dt b s i.x i.xinc) k (fun d => 0 < d)
    (fun h i l => Starts l i.x i.maxIter ∧ ∀ c ∈ l.calls, c.ct = 1 ∧
      c.Solves i.dt (((vbdfFormulaAt k h i.dt)[0]?).getD 0) ((1 / i.dt) • weighted (vbdfFormulaAt k h i.dt) (i.x :: h.map Prod.fst)))
    (by
      intro b h i s w hh hi
      obtain ⟨b', l, h1, h2, h3, h4⟩ := vbdfStep_spec k hk2 b h w i.dt hi hh i.cb i.maxIter s i.x i.xinc
      exact ⟨b', l, h1, h2, h3, h4⟩)
    ins hins b0 [] (by simp) w0 s
  refine ⟨b, ls, hr, hl, ?_⟩
  intro n i l hi hn
  have hlen : n < ins.length := by
    rw [List.getElem?_eq_some_iff] at hi; exact hi.1
  have := hp n i l hi hn
  rw [List.append_nil, ← take_states ins n i hi] at this
  have e : vbdfFormulaAt k (((ins.take n).map fun j => (j.x, j.dt)).reverse) i.dt = vbdfFormulaOf k ins n i.dt := by
    cases n with
    | zero => simp [vbdfFormulaAt, vbdfFormulaOf]
    | succ m =>
      have hm : m < ins.length := by omega
      rw [List.take_add_one, List.getElem?_eq_getElem hm]
      simp only [Option.toList_some, List.map_append, List.map_cons, List.map_nil, List.reverse_append, List.reverse_cons,
        List.reverse_nil, List.nil_append, List.cons_append, vbdfFormulaAt, vbdfFormulaOf, List.getElem?_eq_getElem hm]
  rw [e] at this
  exact this

/-! ## C35 -/

/-- C35, the formulas.  For every order `q` from 1 to 4, every polynomial curve `p` of degree at most `q`, every time `t` and step
`dt`: the formula of order `q` gives `p(t+dt)` from `p(t), p(t-dt), …` and `p'(t+dt)`. -/
theorem bdf_formula_exact (q : Nat) (hq : 1 ≤ q) (hq4 : q ≤ 4) (d : Nat) (hd : d ≤ q) (a : Nat → V) (t dt : K) (xs : List V)
    (hxs : ∀ m, m < q → xs[m]? = some (curve d a (t - m * dt))) :
    weighted (bdfFormula K q) xs + (dt * ((bdfFormula K q)[0]?).getD 0) • curve' d a (t + dt) = curve d a (t + dt) := by
  simp only [fun t : K => (curve_pad d q hd a t).1, fun t : K => (curve_pad d q hd a t).2] at hxs ⊢
  generalize (fun i => if i ≤ d then a i else 0) = a at hxs
  have : q = 1 ∨ q = 2 ∨ q = 3 ∨ q = 4 := by omega
  rcases this with rfl | rfl | rfl | rfl
  · have h0 := hxs 0 (by omega)
    match xs, h0 with
    | y0 :: ys, h0 =>
      simp at h0
      subst h0
      simp [weighted, bdfFormula, curve, curve', sum_range_succ]
      module
  · have h0 := hxs 0 (by omega)
    have h1 := hxs 1 (by omega)
    match xs, h0, h1 with
    | y0 :: y1 :: ys, h0, h1 =>
      simp at h0 h1
      subst h0 h1
      simp [weighted, bdfFormula, curve, curve', sum_range_succ]
      module
  · have h0 := hxs 0 (by omega)
    have h1 := hxs 1 (by omega)
    have h2 := hxs 2 (by omega)
    match xs, h0, h1, h2 with
    | y0 :: y1 :: y2 :: ys, h0, h1, h2 =>
      simp at h0 h1 h2
      subst h0 h1 h2
      simp [weighted, bdfFormula, curve, curve', sum_range_succ]
      module
  · have h0 := hxs 0 (by omega)
    have h1 := hxs 1 (by omega)
    have h2 := hxs 2 (by omega)
    have h3 := hxs 3 (by omega)
    match xs, h0, h1, h2, h3 with
    | y0 :: y1 :: y2 :: y3 :: ys, h0, h1, h2, h3 =>
      simp at h0 h1 h2 h3
      subst h0 h1 h2 h3
      simp [weighted, bdfFormula, curve, curve', sum_range_succ]
      module

/-- C35, variable step formula: exact for every quadratic curve and every pair of positive steps. -/
theorem vbdf_formula_exact (d : Nat) (hd : d ≤ 2) (a : Nat → V) (t dp dt : K) (hdp : 0 < dp) (hdt : 0 < dt) (ys : List V) :
    weighted (vbdfFormula dp dt) (curve d a t :: curve d a (t - dp) :: ys) +
      (dt * ((vbdfFormula dp dt)[0]?).getD 0) • curve' d a (t + dt) = curve d a (t + dt) := by
  simp only [fun t : K => (curve_pad d 2 hd a t).1, fun t : K => (curve_pad d 2 hd a t).2]
  generalize (fun i => if i ≤ d then a i else 0) = a
  have n1 : dp ≠ 0 := hdp.ne'
  have n2 : dp + 2 * dt ≠ 0 := by positivity
  simp [weighted, vbdfFormula, curve, curve', sum_range_succ]
  match_scalars <;> field_simp <;> ring

omit [LinearOrder K] [IsStrictOrderedRing K] [AddCommGroup V] [Module K V] [Field K] in
theorem states_get (ins : List (StepIn σ D K V)) (n m : Nat) (hn : n < ins.length) (hm : m ≤ n) :
    (statesUpTo ins n)[m]? = (ins[n - m]?).map StepIn.x := by
  unfold statesUpTo
  rw [List.getElem?_reverse (by simp; omega)]
  simp only [List.length_map, List.length_take]
  rw [List.getElem?_map, List.getElem?_take]
  rw [if_pos (by omega)]
  congr 2
  omega

/-- C35.  If the states the last `min (n+1) k` steps started from lie on a polynomial curve of degree at most `min (n+1) k`, then
the residual handed to the solver in step `n` measures exactly how far the unknown and its right-hand side are from that curve at
the new time: it vanishes when `x = p(t+dt)` and `f = p'(t+dt)`. -/
theorem bdf_exact (k : Int) (hk0 : 0 < k) (hk4 : k ≤ 4) (x0 : V) (d0 : K) (s : σ) (dt : K) (hdt : 0 < dt)
    (ins : List (StepIn σ D K V)) (hins : ∀ i ∈ ins, i.dt = dt) (b0 b : BDF K V) (ls : List (Loop σ K V))
    (h0 : mkBDF k x0 d0 = .ok b0)
    (hrun : runSteps (fun i b s => bdfStep i.cb i.maxIter i.dt b s i.x i.xinc) ins b0 s = .ok (b, ls))
    (n : Nat) (l : Loop σ K V) (hl : ls[n]? = some l) (d : Nat) (hd : d ≤ min (n + 1) k.toNat) (a : Nat → V) (t : K)
    (hpoly : ∀ (m : Nat) (i : StepIn σ D K V), m ≤ n → ins[n - m]? = some i → i.x = curve d a (t - m * dt)) :
    ∀ c ∈ l.calls, c.rhs = c.alpha • (c.f - curve' d a (t + dt)) - (1 / dt) • (c.x - curve d a (t + dt)) := by
  obtain ⟨b0', e0, b', ls', er, hlen, hp⟩ := bdf_history k hk0 hk4 x0 d0 s dt hdt ins hins
  rw [h0] at e0
  obtain e := Res.ok.inj e0
  subst e
  rw [hrun] at er
  obtain e := Res.ok.inj er
  obtain ⟨rfl, rfl⟩ := Prod.mk.inj e
  have hn : n < ins.length := by
    rw [List.getElem?_eq_some_iff] at hl
    obtain ⟨hl, _⟩ := hl
    omega
  obtain ⟨_, hc⟩ := hp n _ l (List.getElem?_eq_getElem hn) hl
  intro c hcm
  obtain ⟨_, c1, c2, c3, c4⟩ := hc c hcm
  have hex := bdf_formula_exact (min (n + 1) k.toNat) (by omega) (by omega) d hd a t dt (statesUpTo ins n) (by
    intro m hm
    rw [states_get ins n m hn (by omega)]
    have hlt : n - m < ins.length := by omega
    rw [List.getElem?_eq_getElem hlt, Option.map_some, hpoly m _ (by omega) (List.getElem?_eq_getElem hlt)])
  rw [c4, c2, ← hex]
  have := hdt.ne'
  match_scalars <;> field_simp <;> ring

/-- C35, variable step: from the second step on, the residual vanishes on every quadratic curve through the last two states,
whatever the two positive step sizes are. -/
theorem vbdf_exact (x0 : V) (d0 : K) (s : σ) (ins : List (StepIn σ D K V)) (hins : ∀ i ∈ ins, 0 < i.dt)
    (b0 b : BDF K V) (ls : List (Loop σ K V)) (h0 : mkVBDF 2 x0 d0 = .ok b0)
    (hrun : runSteps (fun i b s => vbdfStep i.cb i.maxIter i.dt b s i.x i.xinc) ins b0 s = .ok (b, ls))
    (n : Nat) (l : Loop σ K V) (hl : ls[n + 1]? = some l) (i j : StepIn σ D K V) (hi : ins[n + 1]? = some i) (hj : ins[n]? = some j)
    (d : Nat) (hd : d ≤ 2) (a : Nat → V) (t : K) (hxi : i.x = curve d a t) (hxj : j.x = curve d a (t - j.dt)) :
    ∀ c ∈ l.calls, c.rhs = c.alpha • (c.f - curve' d a (t + i.dt)) - (1 / i.dt) • (c.x - curve d a (t + i.dt)) := by
  obtain ⟨b0', e0, b', ls', er, hlen, hp⟩ := vbdf_history 2 (by decide) (by decide) x0 d0 s ins hins
  rw [h0] at e0
  obtain e := Res.ok.inj e0
  subst e
  rw [hrun] at er
  obtain e := Res.ok.inj er
  obtain ⟨rfl, rfl⟩ := Prod.mk.inj e
  obtain ⟨_, hc⟩ := hp (n + 1) i l hi hl
  intro c hcm
  obtain ⟨_, c1, c2, c3, c4⟩ := hc c hcm
  have hit : 0 < i.dt := hins i (List.mem_of_getElem? hi)
  have hjt : 0 < j.dt := hins j (List.mem_of_getElem? hj)
  have hst : statesUpTo ins (n + 1) = curve d a t :: curve d a (t - j.dt) :: (((ins.take n).map fun j => (j.x, j.dt)).reverse).map Prod.fst := by
    rw [take_states ins (n + 1) i hi, hxi, ← hxj]
    have := take_states ins n j hj
    unfold statesUpTo at this
    rw [← this]
    simp [Function.comp_def]
  have hf : vbdfFormulaOf 2 ins (n + 1) i.dt = vbdfFormula j.dt i.dt := by
    simp [vbdfFormulaOf, hj]
  rw [hf, hst] at c4
  rw [hf] at c2
  rw [c4, c2, ← vbdf_formula_exact d hd a t j.dt i.dt hjt hit]
  have := hit.ne'
  match_scalars <;> field_simp <;> ring

/-- The hypotheses of `bdf_exact` are met, and its conclusion is about actual solver calls: three steps of the second order
integrator along `p(t) = t²` with a solver that adds the residual. -/
def demoCb : Callbacks Unit Unit ℚ ℚ :=
  { fdt := fun s _ _ _ => (s, ()), frhs := fun s x _ _ _ _ => (s, 2 * x), fsolve := fun s _ r _ _ _ _ _ _ _ => (s, r),
    fstop := fun s i _ _ => (s, decide (2 ≤ i)), fincrement := fun s x y a _ => (s, x + a * y) }

def demoIns : List (StepIn Unit Unit ℚ ℚ) :=
  [⟨demoCb, 5, 1, 0, 0⟩, ⟨demoCb, 5, 1, 1, 0⟩, ⟨demoCb, 5, 1, 4, 0⟩]

example : (∀ i ∈ demoIns, i.dt = 1) ∧
    ∀ (m : Nat) (i : StepIn Unit Unit ℚ ℚ), m ≤ 2 → demoIns[2 - m]? = some i →
      i.x = curve 2 (fun i => if i = 2 then (1 : ℚ) else 0) (2 - m * (1 : ℚ)) := by
  refine ⟨by simp [demoIns], ?_⟩
  intro m i hm hi
  have : m = 0 ∨ m = 1 ∨ m = 2 := by omega
  rcases this with rfl | rfl | rfl <;> simp [demoIns] at hi <;> subst hi <;> norm_num [curve, sum_range_succ]

example : ∃ b0 b ls l, mkBDF (K := ℚ) (V := ℚ) 2 0 0 = .ok b0 ∧
    runSteps (fun i b s => bdfStep i.cb i.maxIter i.dt b s i.x i.xinc) demoIns b0 () = .ok (b, ls) ∧ ls[2]? = some l ∧
    ∃ c cs, l.calls = c :: cs ∧ c.x = 4 := by
  obtain ⟨b0, h0, b, ls, hr, hlen, hp⟩ := bdf_history (K := ℚ) (V := ℚ) 2 (by decide) (by decide) 0 0 () 1 (by decide) demoIns
    (by simp [demoIns])
  have h2 : 2 < ls.length := by rw [hlen]; decide
  obtain ⟨⟨_, hs⟩, _⟩ := hp 2 _ ls[2] rfl (List.getElem?_eq_getElem h2)
  obtain ⟨c, cs, hc, hx⟩ := hs (by decide)
  exact ⟨b0, b, ls, ls[2], h0, hr, List.getElem?_eq_getElem h2, c, cs, hc, hx⟩

/-! ## C31 -/

theorem bisectGo_spec (F : K → K) (f0 T : K) (n : Nat) (v0 v1 : K) (h0 : F v0 ≤ T) (h1 : T ≤ F v1) (hv : v0 < v1) :
    let r := bisectGo F f0 T n v0 v1
    v0 ≤ r ∧ r ≤ v1 ∧ F r ≤ T ∧ ((T - verySmallReal K ≤ f0 ∧ r = v0) ∨
      (r + (v1 - v0) / 2 ^ n ≤ v1 ∧ (T < F (r + (v1 - v0) / 2 ^ n) ∨ r + (v1 - v0) / 2 ^ n = v1))) := by
  induction n generalizing v0 v1 with
  | zero => simpa [bisectGo] using ⟨hv.le, h0⟩
  | succ n ih =>
    simp only [bisectGo]
    by_cases hf : T - verySmallReal K ≤ f0
    · rw [if_pos hf]
      exact ⟨le_refl _, hv.le, h0, Or.inl ⟨hf, rfl⟩⟩
    rw [if_neg hf]
    have hm0 : v0 < 1 / 2 * (v0 + v1) := by linarith
    have hm1 : 1 / 2 * (v0 + v1) < v1 := by linarith
    rw [min_eq_left hm0.le, max_eq_left hm1.le]
    have e : ∀ a b : K, b - a = (v1 - v0) / 2 → (b - a) / 2 ^ n = (v1 - v0) / 2 ^ (n + 1) := by
      intro a b h
      rw [h, pow_succ]
      field_simp
    by_cases hF : F (1 / 2 * (v0 + v1)) ≤ T
    · rw [if_pos hF]
      obtain ⟨a, b, c, d⟩ := ih (1 / 2 * (v0 + v1)) v1 hF h1 hm1
      rw [e _ _ (by ring)] at d
      refine ⟨by linarith, b, c, ?_⟩
      rcases d with d | d
      · exact absurd d.1 hf
      · exact Or.inr d
    · rw [if_neg hF]
      rw [not_le] at hF
      obtain ⟨a, b, c, d⟩ := ih v0 (1 / 2 * (v0 + v1)) h0 hF.le hm0
      rw [e _ _ (by ring)] at d
      refine ⟨a, by linarith, c, ?_⟩
      rcases d with d | ⟨d1, d2⟩
      · exact absurd d.1 hf
      · refine Or.inr ⟨by linarith, ?_⟩
        rcases d2 with d2 | d2
        · exact Or.inl d2
        · rw [d2]; exact Or.inl hF

/-- C31.  Whenever the end values bracket the target, the bisection returns a point of the interval at which the function does not
exceed the target.  Unless the function already reaches the target (up to `verySmallReal`) at the left end, which is then
returned, the point is within `(v1 - v0) / 2^n` of every crossing `c`, from below. -/
theorem bisect_lower (F : K → K) (v0 v1 T : K) (n : Nat) (h0 : F v0 ≤ T) (h1 : T ≤ F v1) (hv : v0 < v1) :
    ∃ r, bisectSolveLower F v0 v1 T n = .ok r ∧ v0 ≤ r ∧ r ≤ v1 ∧ F r ≤ T ∧
      ((T - verySmallReal K ≤ F v0 ∧ r = v0) ∨
        ∀ c, v0 ≤ c → c ≤ v1 → (∀ x, v0 ≤ x → x < c → F x ≤ T) → (∀ x, c < x → x ≤ v1 → T < F x) →
          r ≤ c ∧ c ≤ r + (v1 - v0) / 2 ^ n) := by
  obtain ⟨a, b, c, d⟩ := bisectGo_spec F (F v0) T n v0 v1 h0 h1 hv
  refine ⟨_, by unfold bisectSolveLower; simp only; rw [Res.assert_true _ ⟨h0, h1, hv⟩]; rfl, a, b, c, ?_⟩
  rcases d with d | ⟨d1, d2⟩
  · exact Or.inl d
  · refine Or.inr fun x hx0 hx1 hlo hhi => ⟨?_, ?_⟩
    · by_contra hlt
      rw [not_le] at hlt
      exact absurd c (not_le.2 (hhi _ hlt b))
    · by_contra hlt
      rw [not_le] at hlt
      rcases d2 with d2 | d2
      · have hp : 0 ≤ (v1 - v0) / 2 ^ n := div_nonneg (by linarith) (by positivity)
        exact absurd (hlo _ (by linarith) hlt) (not_le.2 d2)
      · linarith

/-- Outside the bracketing condition the call aborts. -/
theorem bisect_aborts (F : K → K) (v0 v1 T : K) (n : Int) (h : ¬ (F v0 ≤ T ∧ T ≤ F v1 ∧ v0 < v1)) :
    bisectSolveLower F v0 v1 T n = .abort := by
  unfold bisectSolveLower
  simp only [Res.bind_abort_iff, Res.assert_abort_iff]
  exact Or.inl h

example : bisectSolveLower (fun x : ℚ => x * x) 0 2 2 3 = .ok (5 / 4) := by
  simp only [bisectSolveLower]
  rw [Res.assert_true _ (by norm_num)]
  simp only [Res.ok_bind, Res.pure_eq, Res.ok.injEq, show (3 : Int).toNat = 3 from rfl]
  norm_num [bisectGo, verySmallReal]

/-- The early return makes the distance bound fail: this increasing function crosses `0` at `1`, its value at `0` is within
`verySmallReal` of it, and `0` is returned whatever the iteration count. -/
theorem bisect_early_return (n : Int) :
    bisectSolveLower (fun x : ℚ => if x ≤ 1 then (x - 1) / 10 ^ 200 else x) 0 2 0 n = .ok 0 := by
  simp only [bisectSolveLower]
  rw [Res.assert_true _ (by norm_num)]
  simp only [Res.ok_bind, Res.pure_eq, Res.ok.injEq]
  cases n.toNat with
  | zero => rfl
  | succ m =>
    simp only [bisectGo]
    rw [if_pos (by norm_num [verySmallReal])]

/-! ## Step size limiting of the variable step integrator (C55) -/

/-- the weight `-B` of the extrapolated increment in the second order formula -/
def extrapWeight (dp dt : K) : K := dt ^ 2 / (dp * (dp + 2 * dt))

theorem extrapWeight_mono (dp a b : K) (hdp : 0 < dp) (ha : 0 ≤ a) (hab : a ≤ b) : extrapWeight dp a ≤ extrapWeight dp b := by
  unfold extrapWeight
  have hb : 0 ≤ b := le_trans ha hab
  rw [div_le_div_iff₀ (by positivity) (by positivity)]
  have : 0 ≤ b - a := by linarith
  have h1 : a ^ 2 ≤ b ^ 2 := by nlinarith
  have h2 : a ^ 2 * b ≤ b ^ 2 * a := by nlinarith [mul_nonneg (mul_nonneg ha hb) this]
  have h3 : a ^ 2 * dp * dp ≤ b ^ 2 * dp * dp := by
    have : 0 ≤ dp * dp := by positivity
    nlinarith
  nlinarith

/-- C55.  After at least one step, for every wished step `dt`, growth limit and limiter callback with values in `[0, ∞)`: the
limited step exists, is positive or zero, not larger than the wished one, and if the limiter asked for a reduction to the fraction
`lim < 1`, the weight with which the step extrapolates the last increment is at most `lim` times the weight at the wished step. -/
theorem limitDt_bound (b : BDF K V) (x p : V) (dp : K) (t : List (V × K)) (w : Window 2 b ((p, dp) :: t)) (hdp : 0 < dp)
    (flimit : V → V → K) (hlim : ∀ u v, 0 ≤ flimit u v) (dt maxInc : K) (hdt : 0 < dt) (hmax : 0 < maxInc) :
    ∃ dt', limitDt b flimit x dt maxInc = .ok dt' ∧ 0 ≤ dt' ∧ dt' ≤ dt ∧
      extrapWeight dp dt' ≤ min 1 (flimit x (extrapWeight dp dt • (x - p))) * extrapWeight dp dt := by
  have hcn : b.cnPrev = 1 := by have := w.cn; simp only [List.length_cons] at this; omega
  have hds := w.ds 0 (by omega)
  have hxs := w.xs 0 (by omega)
  simp only [List.getElem?_cons_zero, Option.map_some, Nat.cast_zero] at hds hxs
  have n1 : dp + dt ≠ 0 := by positivity
  have n2 : dp + 2 * dt ≠ 0 := by positivity
  have n3 : dp ≠ 0 := by positivity
  have hwt : -(-(dt / dp) * (dt / (dp + dt)) / (1 + dt / (dp + dt))) = extrapWeight dp dt := by
    have n4 : 1 + dt / (dp + dt) ≠ 0 := by positivity
    unfold extrapWeight
    field_simp
    ring
  have hfB : ∀ d : K, 0 ≤ d → d / dp * (d / (d + dp)) / (1 + d / (d + dp)) = extrapWeight dp d := by
    intro d hd
    have m1 : d + dp ≠ 0 := by positivity
    have m2 : dp + 2 * d ≠ 0 := by positivity
    have m4 : 1 + d / (d + dp) ≠ 0 := by positivity
    unfold extrapWeight
    field_simp
    ring
  have hcs : vbdfCoefs b dt = .ok [1 / (1 + dt / (dp + dt)), 1 + dt / dp * (dt / (dp + dt)) / (1 + dt / (dp + dt)),
      -(dt / dp) * (dt / (dp + dt)) / (1 + dt / (dp + dt))] := by
    unfold vbdfCoefs
    simp only [hcn, w.kk]
    rw [if_neg (by decide), if_pos (by decide), cmod_emod _ _ (by omega), Res.ok_bind,
      at'_ok _ _ dp (Int.emod_nonneg _ (by omega)) hds, Res.ok_bind]
    rfl
  have hW : 0 ≤ extrapWeight dp dt := by unfold extrapWeight; positivity
  unfold limitDt
  rw [hcs, Res.ok_bind]
  simp only [hcn, w.kk]
  rw [if_neg (by decide), if_pos (by decide), Res.assert_true _ (by decide), Res.ok_bind, cmod_emod _ _ (by omega), Res.ok_bind,
    at'_ok _ _ p (Int.emod_nonneg _ (by omega)) hxs, Res.ok_bind]
  rw [show at' [1 / (1 + dt / (dp + dt)), 1 + dt / dp * (dt / (dp + dt)) / (1 + dt / (dp + dt)),
      -(dt / dp) * (dt / (dp + dt)) / (1 + dt / (dp + dt))] 2 = .ok (-(dt / dp) * (dt / (dp + dt)) / (1 + dt / (dp + dt))) from rfl,
    Res.ok_bind, hwt]
  rw [show x + (-1 : K) • p = x - p by rw [neg_one_smul, sub_eq_add_neg]]
  have hl0 := hlim x (extrapWeight dp dt • (x - p))
  generalize flimit x (extrapWeight dp dt • (x - p)) = lim at hl0 ⊢
  by_cases h1 : 1 ≤ lim
  · rw [if_pos h1, min_eq_left h1]
    exact ⟨dt, rfl, hdt.le, le_refl _, by rw [one_mul]⟩
  rw [if_neg h1, min_eq_right (le_of_not_ge h1), Res.assert_true _ hl0, Res.ok_bind,
    at'_ok _ _ dp (Int.emod_nonneg _ (by omega)) hds, Res.ok_bind]
  have hM : 0 < dp * maxInc := by positivity
  have fin : ∀ d, 0 ≤ d → extrapWeight dp d ≤ lim * extrapWeight dp dt →
      ∃ dt', (Res.ok (min d dt) : Res K) = .ok dt' ∧ 0 ≤ dt' ∧ dt' ≤ dt ∧ extrapWeight dp dt' ≤ lim * extrapWeight dp dt := by
    intro d hd hle
    refine ⟨_, rfl, le_min hd hdt.le, min_le_right _ _, ?_⟩
    exact le_trans (extrapWeight_mono dp _ _ hdp (le_min hd hdt.le) (min_le_left _ _)) hle
  simp only [hfB _ hM.le]
  by_cases h2 : extrapWeight dp (dp * maxInc) ≤ lim * extrapWeight dp dt
  · rw [if_pos h2]
    exact fin _ hM.le h2
  · rw [if_neg h2]
    rw [not_le] at h2
    have hT : 0 ≤ lim * extrapWeight dp dt := mul_nonneg hl0 hW
    obtain ⟨r, e, r0, r1, r2, _⟩ := bisect_lower (fun d => d / dp * (d / (d + dp)) / (1 + d / (d + dp))) 0 (dp * maxInc)
      (lim * extrapWeight dp dt * (99 / 100)) 20 (by simp; linarith)
      (by rw [hfB _ hM.le]; linarith) hM
    rw [show ((20 : Nat) : Int) = 20 from rfl] at e
    rw [e, Res.ok_bind]
    rw [hfB _ r0] at r2
    exact fin r r0 (by linarith)

end DNDSR.ODE
