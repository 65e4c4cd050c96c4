import Verif.Model.ShapeFunc
import Verif.Proof.Jet
import Mathlib.Tactic.Ring
import Mathlib.Tactic.FieldSimp
import Mathlib.Tactic.LinearCombination
import Mathlib.Analysis.Calculus.Deriv.Mul
import Mathlib.Analysis.Calculus.Deriv.Inv
import Mathlib.Analysis.Calculus.Deriv.Pow
import Mathlib.Analysis.Calculus.Deriv.Pi
import Mathlib.Tactic.Linarith
import Mathlib.Tactic.Positivity

/-!
# A normal form for the entries of the shape function tables

Every entry is a polynomial with integer coefficients divided by `den * (z - 1) ^ k`. The normal form is computed,
and its equality, its derivatives and its substitutions are decided, by functions the kernel can run.
-/

namespace DNDSR.Shape

/-- A polynomial: exponents of the three coordinates and a coefficient. -/
abbrev P := List (Nat × Nat × Nat × Int)

namespace P

/-- The value of a term. -/
noncomputable def tev (x y z : ℝ) (m : Nat × Nat × Nat × Int) : ℝ := m.2.2.2 * (x ^ m.1 * y ^ m.2.1 * z ^ m.2.2.1)

/-- The value of a polynomial. -/
noncomputable def ev (x y z : ℝ) : P → ℝ
  | [] => 0
  | m :: p => tev x y z m + ev x y z p

/-- Evaluates a number before it is used: the same value, but the kernel then carries a numeral, not a sum. -/
def force {α : Type} (n : Nat) (f : Nat → α) : α :=
  match n with
  | 0 => f 0
  | k + 1 => f (k + 1)

def forceI {α : Type} (n : Int) (f : Int → α) : α :=
  match n with
  | .ofNat k => force k fun k => f (.ofNat k)
  | .negSucc k => force k fun k => f (.negSucc k)

theorem force_eq {α : Type} (n : Nat) (f : Nat → α) : force n f = f n := by cases n <;> rfl

theorem forceI_eq {α : Type} (n : Int) (f : Int → α) : forceI n f = f n := by
  cases n <;> simp [forceI, force_eq]

def isZ : Int → Bool
  | .ofNat k => Nat.beq k 0
  | .negSucc _ => false

theorem isZ_eq {k : Int} (h : isZ k = true) : k = 0 := by
  cases k with
  | ofNat k =>
    have : k = 0 := Nat.eq_of_beq_eq_true h
    subst this; rfl
  | negSucc k => exact absurd h (by simp [isZ])

/-- A term in front of a polynomial; a term with coefficient zero is dropped. -/
def consF (a b c : Nat) (k : Int) (p : P) : P :=
  forceI k fun k => bif isZ k then p else force a fun a => force b fun b => force c fun c => (a, b, c, k) :: p

def ins (m : Nat × Nat × Nat × Int) : P → P
  | [] => [m]
  | n :: p => bif Nat.beq m.1 n.1 && (Nat.beq m.2.1 n.2.1 && Nat.beq m.2.2.1 n.2.2.1) then consF n.1 n.2.1 n.2.2.1 (m.2.2.2 + n.2.2.2) p
    else n :: ins m p

def add : P → P → P
  | [], q => q
  | m :: p, q => ins m (add p q)

def tmul (m : Nat × Nat × Nat × Int) : P → P
  | [] => []
  | n :: p => consF (m.1 + n.1) (m.2.1 + n.2.1) (m.2.2.1 + n.2.2.1) (m.2.2.2 * n.2.2.2) (tmul m p)

def mul : P → P → P
  | [], _ => []
  | m :: p, q => add (tmul m q) (mul p q)

def const (c : Int) : P := [(0, 0, 0, c)]

def neg (p : P) : P := tmul (0, 0, 0, -1) p

def pow (p : P) : Nat → P
  | 0 => const 1
  | n + 1 => mul p (pow p n)

def isZero (p : P) : Bool := p.all fun m => m.2.2.2 == 0

def X : Fin 3 → P
  | 0 => [(1, 0, 0, 1)]
  | 1 => [(0, 1, 0, 1)]
  | 2 => [(0, 0, 1, 1)]

/-- `z - 1`. -/
def u : P := [(0, 0, 1, 1), (0, 0, 0, -1)]

def tdiff (i : Fin 3) (m : Nat × Nat × Nat × Int) : Nat × Nat × Nat × Int :=
  match i with
  | 0 => (m.1 - 1, m.2.1, m.2.2.1, m.2.2.2 * m.1)
  | 1 => (m.1, m.2.1 - 1, m.2.2.1, m.2.2.2 * m.2.1)
  | 2 => (m.1, m.2.1, m.2.2.1 - 1, m.2.2.2 * m.2.2.1)

def diff (i : Fin 3) : P → P
  | [] => []
  | m :: p => consF (tdiff i m).1 (tdiff i m).2.1 (tdiff i m).2.2.1 (tdiff i m).2.2.2 (diff i p)

/-- Substitution of polynomials for the coordinates. -/
def subst (a b c : P) : P → P
  | [] => []
  | m :: p => add (mul (const m.2.2.2) (mul (mul (pow a m.1) (pow b m.2.1)) (pow c m.2.2.1))) (subst a b c p)

variable (x y z : ℝ)

theorem ev_consF (a b c : Nat) (k : Int) (p : P) : ev x y z (consF a b c k p) = tev x y z (a, b, c, k) + ev x y z p := by
  unfold consF
  rw [forceI_eq, cond_eq_ite]
  split
  · rename_i h
    rw [isZ_eq h]
    simp [tev]
  · simp only [force_eq, ev]

theorem ev_ins (m) (p : P) : ev x y z (ins m p) = tev x y z m + ev x y z p := by
  induction p with
  | nil => simp [ins, ev]
  | cons n p ih =>
    unfold ins
    rw [cond_eq_ite]
    split
    · rename_i h
      simp only [Bool.and_eq_true, Nat.beq_eq] at h
      obtain ⟨h1, h2, h3⟩ := h
      simp only [ev_consF, ev, tev, h1, h2, h3]
      push_cast
      ring
    · simp only [ev, ih]
      ring

theorem ev_add (p q : P) : ev x y z (add p q) = ev x y z p + ev x y z q := by
  induction p with
  | nil => simp [add, ev]
  | cons m p ih => simp only [add, ev_ins, ih, ev]; ring

theorem ev_tmul (m) (p : P) : ev x y z (tmul m p) = tev x y z m * ev x y z p := by
  induction p with
  | nil => simp [tmul, ev]
  | cons n p ih =>
    simp only [tmul, ev_consF, ev, ih, tev, pow_add]
    push_cast
    ring

theorem ev_mul (p q : P) : ev x y z (mul p q) = ev x y z p * ev x y z q := by
  induction p with
  | nil => simp [mul, ev]
  | cons m p ih => simp only [mul, ev_add, ev_tmul, ih, ev]; ring

theorem ev_const (c : Int) : ev x y z (const c) = c := by simp [const, ev, tev]

theorem ev_neg (p : P) : ev x y z (neg p) = -ev x y z p := by simp [neg, ev_tmul, tev]

theorem ev_pow (p : P) (n : Nat) : ev x y z (pow p n) = ev x y z p ^ n := by
  induction n with
  | zero => simp [pow, ev_const]
  | succ n ih => rw [pow, ev_mul, ih, pow_succ']

theorem ev_isZero {p : P} (h : isZero p = true) : ev x y z p = 0 := by
  induction p with
  | nil => rfl
  | cons m p ih =>
    simp only [isZero, List.all_cons, Bool.and_eq_true, beq_iff_eq] at h
    simp only [ev, tev, h.1]
    rw [ih h.2]
    simp

theorem ev_X (p : Fin 3 → ℝ) (i : Fin 3) : ev (p 0) (p 1) (p 2) (X i) = p i := by
  fin_cases i <;> simp [X, ev, tev]

theorem ev_u : ev x y z u = z - 1 := by
  simp [u, ev, tev]; ring

theorem ev_subst (a b c p : P) : ev x y z (subst a b c p) = ev (ev x y z a) (ev x y z b) (ev x y z c) p := by
  induction p with
  | nil => rfl
  | cons m p ih => simp only [subst, ev_add, ev_mul, ev_pow, ev_const, ih, ev, tev]

/-- The polynomial as a function of the point. -/
noncomputable def fn (p : P) (q : Fin 3 → ℝ) : ℝ := ev (q 0) (q 1) (q 2) p

theorem fn_differentiable (p : P) : Differentiable ℝ (fn p) := by
  induction p with
  | nil => exact differentiable_const 0
  | cons m p ih =>
    refine Differentiable.add ?_ ih
    unfold tev
    fun_prop

theorem pd_fn (p : P) (i : Fin 3) : Jet.pd i (fn p) = fn (diff i p) := by
  funext q
  induction p with
  | nil =>
    show deriv (fun _ => (0 : ℝ)) _ = _
    simp [fn, diff, ev]
  | cons m p ih =>
    have h : Jet.pd i (fn (m :: p)) = fun q => Jet.pd i (fun q => tev (q 0) (q 1) (q 2) m) q + Jet.pd i (fn p) q :=
      Jet.pd_add (by unfold tev; fun_prop) (fn_differentiable p) i
    rw [h]
    have hc : fn (diff i (m :: p)) q = tev (q 0) (q 1) (q 2) (tdiff i m) + fn (diff i p) q := by
      unfold fn
      rw [diff, ev_consF]
    rw [hc, ← ih]
    refine congrArg (· + Jet.pd i (fn p) q) ?_
    match i with
    | 0 =>
      show deriv (fun t => tev t (q 1) (q 2) m) (q 0) = _
      have : (fun t => tev t (q 1) (q 2) m) = fun t => t ^ m.1 * (m.2.2.2 * (q 1 ^ m.2.1 * q 2 ^ m.2.2.1)) := by
        funext t; unfold tev; ring
      rw [this, deriv_mul_const (by fun_prop), deriv_pow_field]
      simp only [tdiff, tev]
      push_cast
      ring
    | 1 =>
      show deriv (fun t => tev (q 0) t (q 2) m) (q 1) = _
      have : (fun t => tev (q 0) t (q 2) m) = fun t => t ^ m.2.1 * (m.2.2.2 * (q 0 ^ m.1 * q 2 ^ m.2.2.1)) := by
        funext t; unfold tev; ring
      rw [this, deriv_mul_const (by fun_prop), deriv_pow_field]
      simp only [tdiff, tev]
      push_cast
      ring
    | 2 =>
      show deriv (fun t => tev (q 0) (q 1) t m) (q 2) = _
      have : (fun t => tev (q 0) (q 1) t m) = fun t => t ^ m.2.2.1 * (m.2.2.2 * (q 0 ^ m.1 * q 1 ^ m.2.1)) := by
        funext t; unfold tev; ring
      rw [this, deriv_mul_const (by fun_prop), deriv_pow_field]
      simp only [tdiff, tev]
      push_cast
      ring

end P

/-- A polynomial divided by `den * (z - 1) ^ k`. -/
structure Fr where
  num : P
  den : Nat
  k : Nat

namespace Fr

/-- A fraction whose divisor is evaluated first. -/
def mkF (n : P) (d k : Nat) : Fr := P.force d fun d => P.force k fun k => ⟨n, d, k⟩

theorem mkF_eq (n : P) (d k : Nat) : mkF n d k = ⟨n, d, k⟩ := by simp only [mkF, P.force_eq]

def add (f g : Fr) : Fr :=
  if f.den = g.den ∧ f.k = g.k then ⟨P.add f.num g.num, f.den, f.k⟩ else
  mkF (P.add (P.mul f.num (P.mul (P.const g.den) (P.pow P.u (max f.k g.k - f.k))))
    (P.mul g.num (P.mul (P.const f.den) (P.pow P.u (max f.k g.k - g.k))))) (f.den * g.den) (max f.k g.k)

def neg (f : Fr) : Fr := ⟨P.neg f.num, f.den, f.k⟩

def mul (f g : Fr) : Fr := mkF (P.mul f.num g.num) (f.den * g.den) (f.k + g.k)

def pow (f : Fr) (n : Nat) : Fr := mkF (P.pow f.num n) (f.den ^ n) (f.k * n)

def eq (f g : Fr) : Bool :=
  P.isZero (P.add (P.mul f.num (P.mul (P.const g.den) (P.pow P.u (g.k - f.k))))
    (P.neg (P.mul g.num (P.mul (P.const f.den) (P.pow P.u (f.k - g.k))))))

/-- A divisor the tables use: `c * (z - 1) ^ j`. -/
def unit : Ex → Option (Nat × Nat)
  | .lit n => if n = 0 then none else some (n, 0)
  | .sub (.var 2) (.lit 1) => some (1, 1)
  | .sub (.mul (.var 2) (.lit n)) (.lit m) => if n = m ∧ n ≠ 0 then some (n, 1) else none
  | .pow a n => match unit a with
    | some (c, j) => some (c ^ n, j * n)
    | none => none
  | _ => none

def norm : Ex → Option Fr
  | .lit n => some ⟨P.const n, 1, 0⟩
  | .var i => some ⟨P.X i, 1, 0⟩
  | .neg a => match norm a with
    | some f => some (neg f)
    | none => none
  | .add a b => match norm a, norm b with
    | some f, some g => some (add f g)
    | _, _ => none
  | .sub a b => match norm a, norm b with
    | some f, some g => some (add f (neg g))
    | _, _ => none
  | .mul a b => match norm a, norm b with
    | some f, some g => some (mul f g)
    | _, _ => none
  | .div a b => match norm a, unit b with
    | some f, some (c, j) => some (mkF f.num (f.den * c) (f.k + j))
    | _, _ => none
  | .pow a n => match norm a with
    | some f => if n = 0 then none else some (pow f n)
    | none => none

/-- `v` is the value of the fraction at the point. -/
def Rep (p : Fin 3 → ℝ) (v : ℝ) (f : Fr) : Prop := v * (f.den * (p 2 - 1) ^ f.k) = P.fn f.num p ∧ f.den ≠ 0

/-- The fraction has a value at the point. -/
def Ok (p : Fin 3 → ℝ) (f : Fr) : Prop := p 2 - 1 ≠ 0 ∨ f.k = 0

theorem iipow_eq (x : ℝ) : ∀ n : Nat, iipow x n = x ^ n
  | 0 => by simp [iipow]
  | 1 => by simp [iipow]
  | n + 2 => by rw [iipow, iipow_eq x (n + 1), pow_succ' x (n + 1)]

theorem unit_sound (p : Fin 3 → ℝ) : ∀ (e : Ex) {c j : Nat}, unit e = some (c, j) → e.eval p = c * (p 2 - 1) ^ j ∧ c ≠ 0 ∧ e.Defined p := by
  intro e
  induction e with
  | lit n =>
    intro c j h
    by_cases hn : n = 0
    · simp [unit, hn] at h
    · simp only [unit, hn, if_false, Option.some.injEq, Prod.mk.injEq] at h
      obtain ⟨rfl, rfl⟩ := h
      simp [Ex.eval, Ex.Defined, hn]
  | sub a b =>
    intro c j h
    unfold unit at h
    split at h
    · simp_all
    · rename_i he
      injection he with h1 h2
      subst h1 h2
      simp only [Option.some.injEq, Prod.mk.injEq] at h
      obtain ⟨rfl, rfl⟩ := h
      simp [Ex.eval, Ex.Defined]
    · rename_i n m he
      injection he with h1 h2
      subst h1 h2
      by_cases hnm : n = m ∧ n ≠ 0
      · rw [if_pos hnm] at h
        simp only [Option.some.injEq, Prod.mk.injEq] at h
        obtain ⟨h1, h2⟩ := h
        obtain ⟨h3, h4⟩ := hnm
        rw [← h1, ← h2, ← h3]
        refine ⟨?_, h4, ?_⟩
        · simp [Ex.eval]; ring
        · simp [Ex.Defined]
      · rw [if_neg hnm] at h
        exact absurd h (by simp)
    · simp_all
    · exact absurd h (by simp)
  | pow a n ih =>
    intro c j h
    cases ha : unit a with
    | none => simp [unit, ha] at h
    | some cj =>
      obtain ⟨c', j'⟩ := cj
      simp only [unit, ha, Option.some.injEq, Prod.mk.injEq] at h
      obtain ⟨rfl, rfl⟩ := h
      obtain ⟨h1, h2, h3⟩ := ih ha
      refine ⟨?_, pow_ne_zero _ h2, h3⟩
      simp only [Ex.eval, iipow_eq, h1]
      push_cast
      rw [mul_pow, pow_mul]
  | var i => intro c j h; simp [unit] at h
  | neg a _ => intro c j h; simp [unit] at h
  | add a b _ _ => intro c j h; simp [unit] at h
  | mul a b _ _ => intro c j h; simp [unit] at h
  | div a b _ _ => intro c j h; simp [unit] at h

variable {p : Fin 3 → ℝ}

theorem rep_add {v w : ℝ} {f g : Fr} (hf : Rep p v f) (hg : Rep p w g) : Rep p (v + w) (add f g) := by
  obtain ⟨h1, h2⟩ := hf
  obtain ⟨h3, h4⟩ := hg
  unfold add
  split
  · rename_i h
    refine ⟨?_, h2⟩
    show (v + w) * (f.den * (p 2 - 1) ^ f.k) = P.ev _ _ _ (P.add _ _)
    rw [P.ev_add]
    show _ = P.fn f.num p + P.fn g.num p
    rw [← h1, ← h3, h.1, h.2]
    ring
  · rw [mkF_eq]
    refine ⟨?_, Nat.mul_ne_zero h2 h4⟩
    show (v + w) * ((f.den * g.den : Nat) * (p 2 - 1) ^ max f.k g.k) = P.ev _ _ _ (P.add _ _)
    rw [P.ev_add, P.ev_mul, P.ev_mul, P.ev_mul, P.ev_mul, P.ev_const, P.ev_const, P.ev_pow, P.ev_pow, P.ev_u]
    show _ = P.fn f.num p * _ + P.fn g.num p * _
    rw [← h1, ← h3]
    have e1 : (p 2 - 1) ^ max f.k g.k = (p 2 - 1) ^ f.k * (p 2 - 1) ^ (max f.k g.k - f.k) := by
      rw [← pow_add]; congr 1; omega
    have e2 : (p 2 - 1) ^ max f.k g.k = (p 2 - 1) ^ g.k * (p 2 - 1) ^ (max f.k g.k - g.k) := by
      rw [← pow_add]; congr 1; omega
    push_cast
    rw [add_mul]
    nth_rewrite 1 [e1]
    rw [e2]
    ring

theorem rep_neg {v : ℝ} {f : Fr} (hf : Rep p v f) : Rep p (-v) (neg f) := by
  refine ⟨?_, hf.2⟩
  show -v * (f.den * (p 2 - 1) ^ f.k) = P.ev _ _ _ (P.neg _)
  rw [P.ev_neg, neg_mul, hf.1]
  rfl

theorem rep_mul {v w : ℝ} {f g : Fr} (hf : Rep p v f) (hg : Rep p w g) : Rep p (v * w) (mul f g) := by
  rw [mul, mkF_eq]
  refine ⟨?_, Nat.mul_ne_zero hf.2 hg.2⟩
  show v * w * ((f.den * g.den : Nat) * (p 2 - 1) ^ (f.k + g.k)) = P.ev _ _ _ (P.mul _ _)
  rw [P.ev_mul]
  show _ = P.fn f.num p * P.fn g.num p
  rw [← hf.1, ← hg.1, pow_add]
  push_cast
  ring

theorem rep_pow {v : ℝ} {f : Fr} (hf : Rep p v f) (n : Nat) : Rep p (v ^ n) (pow f n) := by
  rw [pow, mkF_eq]
  refine ⟨?_, pow_ne_zero _ hf.2⟩
  show v ^ n * ((f.den ^ n : Nat) * (p 2 - 1) ^ (f.k * n)) = P.ev _ _ _ (P.pow _ _)
  rw [P.ev_pow]
  show _ = P.fn f.num p ^ n
  rw [← hf.1, pow_mul]
  push_cast
  ring

theorem rep_const (c : Int) : Rep p c ⟨P.const c, 1, 0⟩ := by
  refine ⟨?_, one_ne_zero⟩
  show _ = P.ev _ _ _ (P.const c)
  rw [P.ev_const]
  simp

theorem ok_add {f g : Fr} (h : Ok p (add f g)) : Ok p f ∧ Ok p g := by
  rcases h with h | h
  · exact ⟨Or.inl h, Or.inl h⟩
  · unfold add at h
    split at h
    · rename_i h'
      exact ⟨Or.inr h, Or.inr (by rw [← h'.2]; exact h)⟩
    · rw [mkF_eq] at h
      have h : max f.k g.k = 0 := h
      exact ⟨Or.inr (by omega), Or.inr (by omega)⟩

/-- The normal form is right, and no division by zero happens, wherever the normal form has a value. -/
theorem norm_sound : ∀ (e : Ex) {f : Fr}, norm e = some f → Ok p f → Rep p (e.eval p) f ∧ e.Defined p := by
  intro e
  induction e with
  | lit n =>
    intro f h _
    obtain rfl := Option.some.inj h
    have := rep_const (p := p) n
    exact ⟨by simpa [Ex.eval] using this, trivial⟩
  | var i =>
    intro f h _
    obtain rfl := Option.some.inj h
    refine ⟨⟨?_, one_ne_zero⟩, trivial⟩
    show p i * _ = P.ev _ _ _ (P.X i)
    rw [P.ev_X]
    simp
  | neg a ih =>
    intro f h hk
    cases ha : norm a with
    | none => simp [norm, ha] at h
    | some g =>
      simp only [norm, ha, Option.some.injEq] at h
      subst h
      obtain ⟨h1, h2⟩ := ih ha hk
      exact ⟨rep_neg h1, h2⟩
  | add a b iha ihb =>
    intro f h hk
    cases ha : norm a with
    | none => simp [norm, ha] at h
    | some g =>
      cases hb : norm b with
      | none => simp [norm, ha, hb] at h
      | some g' =>
        simp only [norm, ha, hb, Option.some.injEq] at h
        subst h
        obtain ⟨h1, h2⟩ := iha ha (ok_add hk).1
        obtain ⟨h3, h4⟩ := ihb hb (ok_add hk).2
        exact ⟨rep_add h1 h3, h2, h4⟩
  | sub a b iha ihb =>
    intro f h hk
    cases ha : norm a with
    | none => simp [norm, ha] at h
    | some g =>
      cases hb : norm b with
      | none => simp [norm, ha, hb] at h
      | some g' =>
        simp only [norm, ha, hb, Option.some.injEq] at h
        subst h
        obtain ⟨h1, h2⟩ := iha ha (ok_add hk).1
        obtain ⟨h3, h4⟩ := ihb hb (ok_add hk).2
        refine ⟨?_, h2, h4⟩
        rw [Ex.eval, sub_eq_add_neg]
        exact rep_add h1 (rep_neg h3)
  | mul a b iha ihb =>
    intro f h hk
    cases ha : norm a with
    | none => simp [norm, ha] at h
    | some g =>
      cases hb : norm b with
      | none => simp [norm, ha, hb] at h
      | some g' =>
        simp only [norm, ha, hb, Option.some.injEq] at h
        subst h
        have hk' : Ok p g ∧ Ok p g' := by
          rcases hk with hk | hk
          · exact ⟨Or.inl hk, Or.inl hk⟩
          · rw [mul, mkF_eq] at hk
            have hk : g.k + g'.k = 0 := hk
            exact ⟨Or.inr (by omega), Or.inr (by omega)⟩
        obtain ⟨h1, h2⟩ := iha ha hk'.1
        obtain ⟨h3, h4⟩ := ihb hb hk'.2
        exact ⟨rep_mul h1 h3, h2, h4⟩
  | div a b iha ihb =>
    intro f h hk
    cases ha : norm a with
    | none => simp [norm, ha] at h
    | some g =>
      cases hb : unit b with
      | none => simp [norm, ha, hb] at h
      | some cj =>
        obtain ⟨c, j⟩ := cj
        simp only [norm, ha, hb, mkF_eq, Option.some.injEq] at h
        subst h
        have hk : p 2 - 1 ≠ 0 ∨ g.k + j = 0 := hk
        have hk' : Ok p g ∧ (p 2 - 1 ≠ 0 ∨ j = 0) := by
          rcases hk with hk | hk
          · exact ⟨Or.inl hk, Or.inl hk⟩
          · exact ⟨Or.inr (by omega), Or.inr (by omega)⟩
        obtain ⟨h1, h2⟩ := iha ha hk'.1
        obtain ⟨h3, h4, h5⟩ := unit_sound p b hb
        have hu : (p 2 - 1) ^ j ≠ 0 := by
          rcases hk'.2 with h | h
          · exact pow_ne_zero _ h
          · simp [h]
        have hne : b.eval p ≠ 0 := by
          rw [h3]
          exact mul_ne_zero (Nat.cast_ne_zero.mpr h4) hu
        refine ⟨⟨?_, Nat.mul_ne_zero h1.2 h4⟩, h2, h5, hne⟩
        show a.eval p / b.eval p * ((g.den * c : Nat) * (p 2 - 1) ^ (g.k + j)) = P.fn g.num p
        rw [← h1.1, h3, pow_add]
        have hc : (c : ℝ) ≠ 0 := Nat.cast_ne_zero.mpr h4
        push_cast
        field_simp
  | pow a n ih =>
    intro f h hk
    cases ha : norm a with
    | none => simp [norm, ha] at h
    | some g =>
      by_cases hn : n = 0
      · simp [norm, ha, hn] at h
      simp only [norm, ha, hn, if_false, Option.some.injEq] at h
      subst h
      have hk' : Ok p g := by
        rcases hk with hk | hk
        · exact Or.inl hk
        · rw [pow, mkF_eq] at hk
          have hk : g.k * n = 0 := hk
          rcases Nat.mul_eq_zero.mp hk with h | h
          · exact Or.inr h
          · exact absurd h hn
      obtain ⟨h1, h2⟩ := ih ha hk'
      refine ⟨?_, h2⟩
      rw [Ex.eval, iipow_eq]
      exact rep_pow h1 n

/-- The value of the fraction. -/
noncomputable def val (f : Fr) (q : Fin 3 → ℝ) : ℝ := P.fn f.num q / (f.den * (q 2 - 1) ^ f.k)

theorem Ok.pow_ne {f : Fr} (h : Ok p f) : (p 2 - 1) ^ f.k ≠ 0 := by
  rcases h with h | h
  · exact pow_ne_zero _ h
  · simp [h]

theorem Rep.val {v : ℝ} {f : Fr} (h : Rep p v f) (ho : Ok p f) : v = val f p := by
  unfold Fr.val
  rw [← h.1]
  have h1 := ho.pow_ne
  have h2 : (f.den : ℝ) ≠ 0 := Nat.cast_ne_zero.mpr h.2
  field_simp

theorem eq_sound {v w : ℝ} {f g : Fr} (h : eq f g = true) (hf : Rep p v f) (hg : Rep p w g) (hof : Ok p f) (hog : Ok p g) : v = w := by
  have h0 := P.ev_isZero (p 0) (p 1) (p 2) h
  rw [P.ev_add, P.ev_neg, P.ev_mul, P.ev_mul, P.ev_mul, P.ev_mul, P.ev_const, P.ev_const, P.ev_pow, P.ev_pow, P.ev_u] at h0
  have h1 := hf.1
  have h2 := hg.1
  unfold P.fn at h1 h2
  rw [← h1, ← h2] at h0
  have h3 := hof.pow_ne
  have h4 := hog.pow_ne
  have h5 : (f.den : ℝ) ≠ 0 := Nat.cast_ne_zero.mpr hf.2
  have h6 : (g.den : ℝ) ≠ 0 := Nat.cast_ne_zero.mpr hg.2
  have e1 : (p 2 - 1) ^ f.k * (p 2 - 1) ^ (g.k - f.k) = (p 2 - 1) ^ max f.k g.k := by rw [← pow_add]; congr 1; omega
  have e2 : (p 2 - 1) ^ g.k * (p 2 - 1) ^ (f.k - g.k) = (p 2 - 1) ^ max f.k g.k := by rw [← pow_add]; congr 1; omega
  have h8 : (p 2 - 1) ^ max f.k g.k ≠ 0 := by
    rcases Nat.le_total f.k g.k with h | h
    · rw [max_eq_right h]; exact h4
    · rw [max_eq_left h]; exact h3
  have h7 : (v - w) * (f.den * (g.den * (p 2 - 1) ^ max f.k g.k)) = 0 := by
    push_cast at h0
    linear_combination h0 - v * f.den * g.den * e1 + w * f.den * g.den * e2
  rcases mul_eq_zero.mp h7 with h | h
  · linarith
  · exact absurd h (mul_ne_zero h5 (mul_ne_zero h6 h8))

/-- The derivative of a fraction. -/
def diff (i : Fin 3) (f : Fr) : Fr :=
  if f.k = 0 then ⟨P.diff i f.num, f.den, 0⟩
  else if i = 2 then ⟨P.add (P.mul (P.diff 2 f.num) P.u) (P.neg (P.mul (P.const f.k) f.num)), f.den, f.k + 1⟩
  else ⟨P.diff i f.num, f.den, f.k⟩

/-- A repeated derivative, in the order of `Jet.pdL`. -/
def diffL : List (Fin 3) → Fr → Fr
  | [], f => f
  | i :: l, f => diff i (diffL l f)

theorem diff_den (i : Fin 3) (f : Fr) : (diff i f).den = f.den := by
  unfold diff
  split
  · rfl
  · split <;> rfl

theorem diff_k (i : Fin 3) (f : Fr) : (diff i f).k = 0 ↔ f.k = 0 := by
  unfold diff
  split
  · rename_i h; exact ⟨fun _ => h, fun _ => rfl⟩
  · rename_i h
    split
    · exact ⟨fun h' => absurd h' (Nat.succ_ne_zero _), fun h' => absurd h' h⟩
    · rfl

theorem diffL_den (l : List (Fin 3)) (f : Fr) : (diffL l f).den = f.den := by
  induction l with
  | nil => rfl
  | cons i l ih => rw [diffL, diff_den, ih]

theorem diffL_k (l : List (Fin 3)) (f : Fr) : (diffL l f).k = 0 ↔ f.k = 0 := by
  induction l with
  | nil => rfl
  | cons i l ih => rw [diffL, diff_k, ih]

theorem hasDerivAt_fn (n : P) (q : Fin 3 → ℝ) (i : Fin 3) :
    HasDerivAt (fun t => P.fn n (Function.update q i t)) (P.fn (P.diff i n) q) (q i) := by
  have h1 : DifferentiableAt ℝ (fun t => Function.update q i t) (q i) := (hasDerivAt_update q i (q i)).differentiableAt
  have h2 : DifferentiableAt ℝ (fun t => P.fn n (Function.update q i t)) (q i) :=
    DifferentiableAt.comp (q i) (P.fn_differentiable n _) h1
  have h3 := h2.hasDerivAt
  rw [← P.pd_fn]
  exact h3

theorem pd_val {f : Fr} (hd : f.den ≠ 0) (i : Fin 3) {q : Fin 3 → ℝ} (ho : Ok q f) : Jet.pd i (val f) q = val (diff i f) q := by
  have hN := hasDerivAt_fn f.num q i
  have hden : (f.den : ℝ) ≠ 0 := Nat.cast_ne_zero.mpr hd
  have hq := ho.pow_ne
  by_cases hk : f.k = 0
  · have h1 : HasDerivAt (fun t => val f (Function.update q i t)) (P.fn (P.diff i f.num) q / f.den) (q i) := by
      have := hN.div_const (f.den : ℝ)
      simpa [val, hk] using this
    show deriv _ _ = _
    rw [h1.deriv]
    simp [val, diff, hk]
  · have hu : HasDerivAt (fun t => Function.update q i t 2 - 1) (if i = 2 then 1 else 0) (q i) := by
      by_cases h : i = 2
      · subst h
        simpa using (hasDerivAt_id (q 2)).sub_const 1
      · have : (fun t => Function.update q i t 2 - 1) = fun _ => q 2 - 1 := by
          funext t; rw [Function.update_of_ne (Ne.symm h)]
        rw [this, if_neg h]
        exact hasDerivAt_const _ _
    have hU := (hu.pow f.k).const_mul (f.den : ℝ)
    have e0 : Function.update q i (q i) = q := Function.update_eq_self i q
    have hD := hN.div hU (by simp only [Pi.pow_apply, e0]; exact mul_ne_zero hden hq)
    show deriv _ _ = _
    have h1 : HasDerivAt (fun t => val f (Function.update q i t)) _ (q i) := hD
    rw [h1.deriv]
    simp only [Pi.pow_apply, e0]
    have hne : q 2 - 1 ≠ 0 := by
      intro h
      rw [h, zero_pow hk] at hq
      exact hq rfl
    unfold diff
    rw [if_neg hk]
    obtain ⟨m, hm⟩ : ∃ m, f.k = m + 1 := ⟨f.k - 1, by omega⟩
    by_cases hi : i = 2
    · subst hi
      simp only [if_true, val]
      unfold P.fn
      rw [P.ev_add, P.ev_mul, P.ev_u, P.ev_neg, P.ev_mul, P.ev_const, hm]
      simp only [Nat.add_sub_cancel]
      push_cast
      rw [div_eq_div_iff (by positivity) (by positivity)]
      ring
    · simp only [if_neg hi, val]
      unfold P.fn
      field_simp
      ring

theorem ok_eventually {f : Fr} {q : Fin 3 → ℝ} (h : Ok q f) : ∀ᶠ q' in nhds q, Ok q' f := by
  rcases h with h | h
  · have hc : ContinuousAt (fun q' : Fin 3 → ℝ => q' 2 - 1) q :=
      ((continuous_apply (2 : Fin 3)).sub continuous_const).continuousAt
    filter_upwards [hc.eventually_ne h] with q' h'
    exact Or.inl h'
  · exact Filter.Eventually.of_forall fun _ => Or.inr h

theorem pd_eventuallyEq {g h : (Fin 3 → ℝ) → ℝ} {q : Fin 3 → ℝ} (e : g =ᶠ[nhds q] h) (i : Fin 3) : Jet.pd i g q = Jet.pd i h q := by
  have hc : ContinuousAt (fun t => Function.update q i t) (q i) := (hasDerivAt_update q i (q i)).continuousAt
  refine Filter.EventuallyEq.deriv_eq ?_
  have hc' : Filter.Tendsto (fun t => Function.update q i t) (nhds (q i)) (nhds q) := by
    have := hc.tendsto
    rwa [Function.update_eq_self] at this
  exact hc'.eventually e

theorem pdL_val {f : Fr} (hd : f.den ≠ 0) : ∀ (l : List (Fin 3)) {q : Fin 3 → ℝ}, Ok q f → Jet.pdL l (val f) q = val (diffL l f) q := by
  intro l
  induction l with
  | nil => intro q _; rfl
  | cons i l ih =>
    intro q ho
    show Jet.pd i (Jet.pdL l (val f)) q = val (diff i (diffL l f)) q
    have e : Jet.pdL l (val f) =ᶠ[nhds q] val (diffL l f) := by
      filter_upwards [ok_eventually ho] with q' h
      exact ih h
    rw [pd_eventuallyEq e i, pd_val (by rw [diffL_den]; exact hd)]
    exact ho.imp id fun h => (diffL_k l f).mpr h

theorem pdL_eventuallyEq {g h : (Fin 3 → ℝ) → ℝ} (l : List (Fin 3)) : ∀ {q : Fin 3 → ℝ}, g =ᶠ[nhds q] h → Jet.pdL l g =ᶠ[nhds q] Jet.pdL l h := by
  induction l with
  | nil => intro q e; exact e
  | cons i l ih =>
    intro q e
    have h2 := eventually_eventually_nhds.mpr (ih e)
    filter_upwards [h2] with q' h'
    exact pd_eventuallyEq h' i

/-- The derivatives of an expression are the values of the derivatives of its normal form. -/
theorem pdL_eval {e : Ex} {f : Fr} (h : norm e = some f) (l : List (Fin 3)) {q : Fin 3 → ℝ} (ho : Ok q f) :
    Jet.pdL l (fun q' => e.eval q') q = val (diffL l f) q := by
  have hd : f.den ≠ 0 := (norm_sound e h ho).1.2
  have e1 : (fun q' => e.eval q') =ᶠ[nhds q] val f := by
    filter_upwards [ok_eventually ho] with q' h'
    exact (norm_sound e h h').1.val h'
  rw [(pdL_eventuallyEq l e1).eq_of_nhds, pdL_val hd l ho]

theorem val_rep {f : Fr} (hd : f.den ≠ 0) {q : Fin 3 → ℝ} (ho : Ok q f) : Rep q (val f q) f := by
  refine ⟨?_, hd⟩
  have h1 := ho.pow_ne
  have h2 : (f.den : ℝ) ≠ 0 := Nat.cast_ne_zero.mpr hd
  unfold val
  field_simp

end Fr
end DNDSR.Shape
