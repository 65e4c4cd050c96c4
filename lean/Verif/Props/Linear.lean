import Verif.Spec.Linear
import Mathlib.LinearAlgebra.SesquilinearForm.Basic
import Mathlib.LinearAlgebra.Dimension.Finite
import Mathlib.LinearAlgebra.FiniteDimensional.Defs
import Mathlib.LinearAlgebra.Dimension.Constructions
import Mathlib.LinearAlgebra.FiniteDimensional.Basic
import Mathlib.Algebra.Order.Ring.Rat
import Mathlib.Tactic.Module
import Mathlib.Tactic.LinearCombination
import Mathlib.Tactic.Linarith
import Mathlib.Tactic.Positivity
import Mathlib.Tactic.FieldSimp
import Mathlib.Tactic.NormNum
import Mathlib.Tactic.Ring

namespace DNDSR.Krylov

variable {K V : Type} [Field K] [LinearOrder K] [IsStrictOrderedRing K] [AddCommGroup V] [Module K V]
variable {dot : V →ₗ[K] V →ₗ[K] K} {A M : V →ₗ[K] V} {res : V → V} {b : V}

/-! ## C32: error reduction -/

/-- what `FStop` is asked is computed from the true residual of the iterate -/
def AskedTrue (dot : V →ₗ[K] V →ₗ[K] K) (A : V →ₗ[K] V) (res : V → V) (b : V) (x : V) (a : Asked K V) : Prop :=
  a.zr = dot (res x) (b - A x) ∧ a.zz = dot (res x) (res x)

/-- a step reduces the error by at least `(z·r)² / (p·Ap + eps)` in the square of the `A`-norm -/
def Reduces (dot : V →ₗ[K] V →ₗ[K] K) (A : V →ₗ[K] V) (eps : K) (b : V) (x p : V) (alpha zr : K) : Prop :=
  ∀ xs, A xs = b → errA dot A xs (x + alpha • p) + zr ^ 2 / (dot p (A p) + eps) ≤ errA dot A xs x

theorem step_reduces (S : System dot A M res b) (eps : K) (he : 0 < eps) (x p : V) (zr : K) (hz : 0 ≤ zr)
    (hp : zr ≤ dot p (b - A x)) : Reduces dot A eps b x p (zr / (dot p (A p) + eps)) zr := by
  intro xs hs
  have hA := S.A_nonneg p
  set g := dot p (A p) with hg
  have hd : 0 < g + eps := by linarith
  set al := zr / (g + eps) with hal
  have hal0 : 0 ≤ al := div_nonneg hz hd.le
  have h1 : errA dot A xs (x + al • p) = errA dot A xs x - 2 * al * dot p (b - A x) + al ^ 2 * g := by
    unfold errA
    have e : x + al • p - xs = (x - xs) + al • p := by abel
    have e2 : b - A x = -(A (x - xs)) := by rw [map_sub, hs]; abel
    have e3 : dot (x - xs) (A p) = dot p (A (x - xs)) := by rw [← S.A_symm, S.symm]
    rw [e, e2]
    simp only [map_add, LinearMap.add_apply, map_smul, LinearMap.smul_apply, smul_eq_mul, map_neg, e3, ← hg]
    ring
  have h2 : zr ^ 2 / (g + eps) = al * zr := by rw [hal]; ring
  have h3 : al * g ≤ zr := by
    have : al * (g + eps) = zr := by rw [hal]; field_simp
    nlinarith [mul_nonneg hal0 he.le]
  rw [h1, h2]
  nlinarith [mul_le_mul_of_nonneg_left hp hal0, mul_le_mul_of_nonneg_left h3 hal0]

/-- the invariant between iterations -/
def Inv (dot : V →ₗ[K] V →ₗ[K] K) (A : V →ₗ[K] V) (b : V) (c : PCG K V) (x : V) : Prop :=
  c.initialized = true → 0 ≤ c.zrDot ∧ 0 ≤ dot c.p (b - A x)

theorem step_keeps (S : System dot A M res b) (eps : K) (he : 0 < eps) (x p : V) (zr : K) (hz : 0 ≤ zr)
    (hp : zr ≤ dot p (b - A x)) : 0 ≤ dot p (b - A (x + (zr / (dot p (A p) + eps)) • p)) := by
  have hA := S.A_nonneg p
  set g := dot p (A p) with hg
  have hd : 0 < g + eps := by linarith
  set al := zr / (g + eps) with hal
  have hal0 : 0 ≤ al := div_nonneg hz hd.le
  have e : b - A (x + al • p) = (b - A x) - al • A p := by rw [map_add, map_smul]; abel
  rw [e, map_sub, map_smul, smul_eq_mul, ← hg]
  have h3 : al * g ≤ zr := by
    have : al * (g + eps) = zr := by rw [hal]; field_simp
    nlinarith [mul_nonneg hal0 he.le]
  linarith

theorem leads_append (Ask : V → Asked K V → Prop) (Step : V → V → K → K → Prop) (l : List (Asked K V)) (x y : V)
    (h : Leads Ask Step l x y) (hs : ∀ a ∈ l, a.step ≠ none) (l' : List (Asked K V)) (z : V) (h' : Leads Ask Step l' y z) :
    Leads Ask Step (l ++ l') x z := by
  induction l generalizing x with
  | nil => rw [show x = y from h]; exact h'
  | cons a l ih =>
    obtain ⟨h1, h2, h3⟩ := h
    refine ⟨h1, h2, ?_⟩
    have := hs a (List.mem_cons_self ..)
    cases e : a.step with
    | none => exact absurd e this
    | some q =>
      rw [e] at h3
      exact ⟨h3.1, ih _ h3.2 fun b hb => hs b (List.mem_cons_of_mem _ hb)⟩

theorem pcgLoop_spec (S : System dot A M res b) (eps : K) (he : 0 < eps) (stop : Nat → K → K → Bool) (n iter : Nat) (c : PCG K V)
    (x z r : V) (log : List (Asked K V)) (hi : Inv dot A b c x)
    (hz : c.initialized = false → z = res x ∧ r = M z ∧ c.p = z) (hAp : c.Ap = A c.p) :
    ∃ c' y flag l', pcgLoop (sysOps dot A M res) eps stop n iter c x z r log = (c', y, flag, log ++ l') ∧ Inv dot A b c' y ∧ c'.Ap = A c'.p ∧
      Leads (AskedTrue dot A res b) (Reduces dot A eps b) l' x y ∧ l'.length ≤ n ∧
      (flag = true → ∃ a, l'.getLast? = some a ∧ a.step = none ∧ a.x = y ∧ stop a.iter a.zr a.zz = true) ∧
      (flag = false → l'.length = n) ∧ ∀ a ∈ l', a.step ≠ none → stop a.iter a.zr a.zz = false := by
  induction n generalizing iter c x z r log with
  | zero => exact ⟨c, x, false, [], by simp [pcgLoop], hi, hAp, rfl, le_refl _, by simp, by simp, by simp⟩
  | succ n ih =>
    simp only [pcgLoop, sysOps]
    have e1 : (if c.initialized = true then res x else z) = res x := by
      cases h : c.initialized with
      | true => simp
      | false => simp [(hz h).1]
    have e2 : (if c.initialized = true then M (res x) else r) = b - A x := by
      rw [← S.res_eq x]
      cases h : c.initialized with
      | true => simp
      | false => obtain ⟨h1, h2, h3⟩ := hz h; simp [h2, h1]
    simp only [e1, e2]
    have hzr : 0 ≤ dot (res x) (b - A x) := by rw [← S.res_eq]; exact S.M_nonneg _
    by_cases hst : stop iter (dot (res x) (b - A x)) (dot (res x) (res x)) = true
    · rw [if_pos hst]
      exact ⟨_, _, _, [_], rfl, hi, hAp, ⟨rfl, ⟨rfl, rfl⟩, rfl, rfl⟩, by simp,
        fun _ => ⟨{ iter := iter, zr := dot (res x) (b - A x), zz := dot (res x) (res x), x := x, step := none }, rfl, rfl, rfl, hst⟩, fun h => absurd h (by simp), by simp⟩
    · rw [if_neg hst]
      -- the direction used
      have hdir : ∃ p m, (if c.initialized = true then
            { c with p := (dot (res x) (b - A x) / (c.zrDot + eps)) • c.p + res x, pHistorySize := c.pHistorySize + 1,
                     Ap := A ((dot (res x) (b - A x) / (c.zrDot + eps)) • c.p + res x) } else c) =
            { c with p := p, pHistorySize := m, Ap := A p } ∧ dot (res x) (b - A x) ≤ dot p (b - A x) := by
        by_cases h : c.initialized = true
        · obtain ⟨h1, h2⟩ := hi h
          refine ⟨_, _, if_pos h, ?_⟩
          rw [map_add, map_smul, LinearMap.add_apply, LinearMap.smul_apply, smul_eq_mul]
          have : 0 ≤ dot (res x) (b - A x) / (c.zrDot + eps) := div_nonneg hzr (by linarith)
          nlinarith [mul_nonneg this h2]
        · obtain ⟨h1, h2, h3⟩ := hz (by simpa using h)
          refine ⟨c.p, c.pHistorySize, ?_, by rw [h3, h1]⟩
          rw [if_neg h, ← hAp]
      obtain ⟨p, m, ep, hp⟩ := hdir
      simp only [ep]
      obtain ⟨c', y, flag, l', f1, f2, f3, f4, f5, f6, f7, f8⟩ := ih (iter + 1)
        { c with p := p, pHistorySize := m, Ap := A p, zrDot := dot (res x) (b - A x), initialized := true }
        (x + (dot (res x) (b - A x) / (dot p (A p) + eps)) • p) (res x) (b - A x)
        (log ++ [{ iter := iter, zr := dot (res x) (b - A x), zz := dot (res x) (res x), x := x,
                   step := some (p, dot (res x) (b - A x) / (dot p (A p) + eps)) }])
        (fun _ => ⟨hzr, step_keeps S eps he x p _ hzr hp⟩) (by simp) rfl
      refine ⟨c', y, flag, ⟨iter, dot (res x) (b - A x), dot (res x) (res x), x,
          some (p, dot (res x) (b - A x) / (dot p (A p) + eps))⟩ :: l', f1.trans (by rw [List.append_assoc]; rfl), f2, f3,
        ⟨rfl, ⟨rfl, rfl⟩, step_reduces S eps he x p _ hzr hp, f4⟩, by simpa using f5, ?_, ?_, ?_⟩
      · intro hf
        obtain ⟨a, ha, hb⟩ := f6 hf
        refine ⟨a, ?_, hb⟩
        cases l' with
        | nil => simp at ha
        | cons q l' => simpa [List.getLast?_cons_cons] using ha
      · intro hf; simpa using f7 hf
      · intro a ha
        rcases List.mem_cons.mp ha with rfl | ha
        · intro _; simpa using hst
        · exact f8 a ha

/-- C32, error reduction.  For every symmetric non-negative `A` and `M`, every right-hand side, start vector, every history of
`solve` calls (with any iteration limits and stopping rules) and `reset` calls on one object: in every call, each question asked of
the stopping rule is computed from the true residual `b - A x` of the current iterate; each step reduces the square of the `A`-norm
of the error by at least `(z·r)²/(p·Ap + eps)`; the call returns true exactly when the stopping rule accepted the returned vector,
and otherwise has made all its iterations. -/
theorem pcg_reduces (S : System dot A M res b) (eps : K) (he : 0 < eps) (p Ap : V) (zr0 : K) (x0 : V) (ops : List (PcgOp K)) :
    ∀ e ∈ (runPcg (sysOps dot A M res) eps ops (PCG.mk' p Ap zr0) x0).zip
        (ops.filterMap fun | .solve n s => some (n, s) | .reset => none),
      Leads (AskedTrue dot A res b) (Reduces dot A eps b) e.1.2.2.2 e.1.1 e.1.2.1 ∧
      (e.1.2.2.1 = true → ∃ a, e.1.2.2.2.getLast? = some a ∧ a.step = none ∧ a.x = e.1.2.1 ∧ e.2.2 a.iter a.zr a.zz = true) ∧
      (e.1.2.2.1 = false → e.1.2.2.2.length = e.2.1) ∧ ∀ a ∈ e.1.2.2.2, a.step ≠ none → e.2.2 a.iter a.zr a.zz = false := by
  have key : ∀ (ops : List (PcgOp K)) (c : PCG K V) (x : V), Inv dot A b c x → (c.initialized = true → c.Ap = A c.p) →
      ∀ e ∈ (runPcg (sysOps dot A M res) eps ops c x).zip (ops.filterMap fun | .solve n s => some (n, s) | .reset => none),
      Leads (AskedTrue dot A res b) (Reduces dot A eps b) e.1.2.2.2 e.1.1 e.1.2.1 ∧
      (e.1.2.2.1 = true → ∃ a, e.1.2.2.2.getLast? = some a ∧ a.step = none ∧ a.x = e.1.2.1 ∧ e.2.2 a.iter a.zr a.zz = true) ∧
      (e.1.2.2.1 = false → e.1.2.2.2.length = e.2.1) ∧ ∀ a ∈ e.1.2.2.2, a.step ≠ none → e.2.2 a.iter a.zr a.zz = false := by
    intro ops
    induction ops with
    | nil => intro c x _ _ e he; simp [runPcg] at he
    | cons op ops ih =>
      intro c x hi hA
      cases op with
      | reset =>
        simp only [runPcg, List.filterMap_cons]
        exact ih c.reset x (fun h => by simp [PCG.reset] at h) (fun h => by simp [PCG.reset] at h)
      | solve niter stop =>
        simp only [runPcg, List.filterMap_cons]
        have hsolve : ∃ c' y flag l', pcgSolve (sysOps dot A M res) eps stop niter c x = (c', y, flag, l') ∧ Inv dot A b c' y ∧ c'.Ap = A c'.p ∧
            Leads (AskedTrue dot A res b) (Reduces dot A eps b) l' x y ∧ l'.length ≤ niter ∧
            (flag = true → ∃ a, l'.getLast? = some a ∧ a.step = none ∧ a.x = y ∧ stop a.iter a.zr a.zz = true) ∧
            (flag = false → l'.length = niter) ∧ ∀ a ∈ l', a.step ≠ none → stop a.iter a.zr a.zz = false := by
          unfold pcgSolve
          cases h : c.initialized with
          | true =>
            rw [if_pos rfl]
            exact pcgLoop_spec S eps he stop niter 1 c x 0 0 [] hi (fun hf => by rw [h] at hf; cases hf) (hA h)
          | false =>
            rw [if_neg (by simp)]
            refine pcgLoop_spec S eps he stop niter 1 _ x _ _ [] (fun hf => ?_) (fun _ => ⟨rfl, rfl, rfl⟩) rfl
            simp at hf
        obtain ⟨c', y, flag, l', f1, f2, f3, f4, f5, f6, f7, f8⟩ := hsolve
        rw [f1]
        intro e hm
        rw [List.zip_cons_cons] at hm
        rcases List.mem_cons.mp hm with rfl | hm
        · exact ⟨f4, f6, f7, f8⟩
        · exact ih c' y f2 (fun _ => f3) e hm
  exact key ops _ x0 (fun h => by simp [PCG.mk'] at h) (fun h => by simp [PCG.mk'] at h)

/-! ## C32: finite termination -/

/-- the residuals and directions of the iterations made so far, newest first: mutual orthogonality and conjugacy -/
structure Conj (dot : V →ₗ[K] V →ₗ[K] K) (A M : V →ₗ[K] V) (h : List (V × V)) (r : V) : Prop where
  dir : ∀ e ∈ h, dot e.2 r = 0
  ort : ∀ e ∈ h, dot e.1 r = 0
  gap : ∀ e ∈ h.tail, ∀ w, (∀ e' ∈ h, dot w (M e'.1) = 0) → dot w (A e.2) = 0
  span : ∀ e ∈ h, ∀ w, (∀ e' ∈ h, dot w (A e'.2) = 0) → dot w (A e.1) = 0
  pair : h.Pairwise fun e e' => dot e.1 (M e'.1) = 0
  pos : ∀ e ∈ h, dot e.1 (M e.1) ≠ 0
  last : ∀ e ∈ h.head?, dot e.2 (A e.2) ≠ 0 ∧ r = M e.1 - (dot e.1 (M e.1) / dot e.2 (A e.2)) • A e.2 ∧
    ∀ e' ∈ h.tail, dot e.2 (A e'.2) = 0

omit [LinearOrder K] [IsStrictOrderedRing K] in
theorem Conj.step (symm : ∀ u v, dot u v = dot v u) (A_symm : ∀ u v, dot (A u) v = dot u (A v))
    (M_symm : ∀ u v, dot (M u) v = dot u (M v)) (h : List (V × V)) (r z p : V) (C : Conj dot A M h r) (hz : M z = r)
    (hzr : dot z r ≠ 0) (hA : dot p (A p) ≠ 0)
    (hp : (h = [] ∧ p = z) ∨ ∃ e, h.head? = some e ∧ p = (dot z r / dot e.1 (M e.1)) • e.2 + z) :
    Conj dot A M ((z, p) :: h) (r - (dot z r / dot p (A p)) • A p) := by
  have cross : ∀ u v, dot u (M v) = dot v (M u) := fun u v => by rw [← M_symm, symm]
  have crossA : ∀ u v, dot u (A v) = dot v (A u) := fun u v => by rw [← A_symm, symm]
  have hzM : ∀ e ∈ h, dot z (M e.1) = 0 := fun e he => by rw [cross, hz]; exact C.ort e he
  -- the new direction is conjugate to the old ones
  have conj : ∀ e ∈ h, dot p (A e.2) = 0 := by
    intro e he
    rcases hp with ⟨h1, _⟩ | ⟨e0, h1, h2⟩
    · rw [h1] at he; cases he
    · obtain ⟨l1, l2, l3⟩ := C.last e0 h1
      cases h with
      | nil => cases he
      | cons e1 t =>
        obtain rfl : e1 = e0 := by simpa using h1
        have hpos := C.pos e1 (List.mem_cons_self ..)
        rcases List.mem_cons.mp he with rfl | he'
        · have e2 : dot z (A e.2) * (dot e.1 (M e.1) / dot e.2 (A e.2)) = - dot z r := by
            have := congrArg (dot z) l2
            rw [map_sub, map_smul, hzM e (List.mem_cons_self ..), smul_eq_mul] at this
            rw [this]; ring
          rw [h2]
          simp only [map_add, LinearMap.add_apply, map_smul, LinearMap.smul_apply, smul_eq_mul]
          field_simp at e2 ⊢
          linear_combination e2
        · rw [h2]
          simp only [map_add, LinearMap.add_apply, map_smul, LinearMap.smul_apply, smul_eq_mul]
          rw [l3 e he', C.gap e he' z hzM]
          ring
  have pr : dot p r = dot z r := by
    rcases hp with ⟨_, h2⟩ | ⟨e0, h1, h2⟩
    · rw [h2]
    · rw [h2]
      simp only [map_add, LinearMap.add_apply, map_smul, LinearMap.smul_apply, smul_eq_mul]
      rw [C.dir e0 (List.mem_of_mem_head? h1)]
      ring
  have zAp : dot z (A p) = dot p (A p) := by
    rcases hp with ⟨_, h2⟩ | ⟨e0, h1, h2⟩
    · rw [h2]
    · have h3 := conj e0 (List.mem_of_mem_head? h1)
      have h4 : dot p (A p) = (dot z r / dot e0.1 (M e0.1)) * dot e0.2 (A p) + dot z (A p) := by
        conv_lhs => arg 1; rw [h2]
        simp only [map_add, LinearMap.add_apply, map_smul, LinearMap.smul_apply, smul_eq_mul]
      rw [h4, crossA e0.2 p, h3]
      ring
  have sub : ∀ u, dot u (r - (dot z r / dot p (A p)) • A p) = dot u r - (dot z r / dot p (A p)) * dot u (A p) := by
    intro u; rw [map_sub, map_smul, smul_eq_mul]
  refine ⟨?_, ?_, ?_, ?_, ?_, ?_, ?_⟩
  · intro e he
    rw [sub]
    rcases List.mem_cons.mp he with rfl | he
    · simp only [pr]; field_simp; ring
    · rw [C.dir e he, crossA e.2 p, conj e he]; ring
  · intro e he
    rw [sub]
    rcases List.mem_cons.mp he with rfl | he
    · simp only [zAp]; field_simp; ring
    · have := C.span e he p conj
      rw [C.ort e he, crossA e.1 p, this]; ring
  · intro e he w hw
    simp only [List.tail_cons] at he
    have hwh : ∀ e' ∈ h, dot w (M e'.1) = 0 := fun e' he' => hw e' (List.mem_cons_of_mem _ he')
    cases h with
    | nil => cases he
    | cons e1 t =>
      rcases List.mem_cons.mp he with rfl | he'
      · obtain ⟨l1, l2, l3⟩ := C.last e (by simp)
        have hpos := C.pos e (List.mem_cons_self ..)
        have hr : dot w r = 0 := by rw [← hz]; exact hw (z, p) (List.mem_cons_self ..)
        rw [l2, map_sub, map_smul, hwh e (List.mem_cons_self ..), smul_eq_mul, zero_sub, neg_eq_zero] at hr
        rcases mul_eq_zero.mp hr with h' | h'
        · exact absurd h' (div_ne_zero hpos l1)
        · exact h'
      · exact C.gap e he' w hwh
  · intro e he w hw
    have hwh : ∀ e' ∈ h, dot w (A e'.2) = 0 := fun e' he' => hw e' (List.mem_cons_of_mem _ he')
    rcases List.mem_cons.mp he with rfl | he
    · have hwp : dot w (A p) = 0 := hw (z, p) (List.mem_cons_self ..)
      rcases hp with ⟨_, h2⟩ | ⟨e0, h1, h2⟩
      · rw [h2] at hwp; exact hwp
      · rw [h2, map_add, map_smul, map_add, map_smul, hwh e0 (List.mem_of_mem_head? h1), smul_zero, zero_add] at hwp
        exact hwp
    · exact C.span e he w hwh
  · exact List.pairwise_cons.mpr ⟨fun e he => hzM e he, C.pair⟩
  · intro e he
    rcases List.mem_cons.mp he with rfl | he
    · simp only [hz]; exact hzr
    · exact C.pos e he
  · intro e he
    obtain rfl : (z, p) = e := by simpa using he
    exact ⟨hA, by simp only [hz], fun e' he' => conj e' he'⟩

omit [LinearOrder K] [IsStrictOrderedRing K] in
theorem Conj.length_le [FiniteDimensional K V] (M_symm : ∀ u v, dot (M u) v = dot u (M v)) (symm : ∀ u v, dot u v = dot v u)
    (h : List (V × V)) (r : V) (C : Conj dot A M h r) : h.length ≤ Module.finrank K V := by
  have cross : ∀ u v, dot u (M v) = dot v (M u) := fun u v => by rw [← M_symm, symm]
  have li : LinearIndependent K (fun i : Fin h.length => (h.get i).1) := by
    refine LinearMap.linearIndependent_of_isOrthoᵢ (B := dot.compl₂ M) ?_ ?_
    · intro i j hij
      simp only [Function.onFun, LinearMap.isOrtho_def, LinearMap.compl₂_apply]
      have hp := List.pairwise_iff_getElem.mp C.pair
      rcases Nat.lt_or_gt_of_ne (fun e => hij (Fin.ext e)) with hlt | hlt
      · exact hp i j i.2 j.2 hlt
      · rw [cross]; exact hp j i j.2 i.2 hlt
    · intro i hi
      exact C.pos (h.get i) (List.get_mem ..) hi
  simpa using li.fintype_card_le_finrank

/-- C32, finite termination.  Without the safeguard in the denominators (`eps = 0`, exact arithmetic): on a space of dimension `d`,
with `A`, `M` symmetric and definite, a fresh or reset object that is allowed more than `d` iterations returns true, for every
stopping rule that accepts a zero `z·r`; and the rule accepts the returned vector. -/
theorem pcg_terminates [FiniteDimensional K V] (S : System dot A M res b) (hA : ∀ u, dot u (A u) = 0 → u = 0)
    (stop : Nat → K → K → Bool) (hstop : ∀ i zz, stop i 0 zz = true) (niter : Nat) (hn : Module.finrank K V < niter)
    (c : PCG K V) (hc : c.initialized = false) (x : V) :
    ∃ c' y log, pcgSolve (sysOps dot A M res) 0 stop niter c x = (c', y, true, log) ∧
      ∃ i, stop i (dot (res y) (b - A y)) (dot (res y) (res y)) = true := by
  have key : ∀ (n iter : Nat) (c : PCG K V) (x z r : V) (log : List (Asked K V)) (h : List (V × V)),
      Conj dot A M h (b - A x) → (c.initialized = false → h = [] ∧ z = res x ∧ r = M z ∧ c.p = z ∧ c.Ap = A c.p) →
      (c.initialized = true → ∃ e, h.head? = some e ∧ c.p = e.2 ∧ c.zrDot = dot e.1 (M e.1)) → Module.finrank K V < h.length + n →
      ∃ c' y log', pcgLoop (sysOps dot A M res) 0 stop n iter c x z r log = (c', y, true, log') ∧
        ∃ i, stop i (dot (res y) (b - A y)) (dot (res y) (res y)) = true := by
    intro n
    induction n with
    | zero =>
      intro iter c x z r log h C _ _ hl
      exact absurd (C.length_le S.M_symm S.symm) (by omega)
    | succ n ih =>
      intro iter c x z r log h C hz hh hl
      simp only [pcgLoop, sysOps]
      have e1 : (if c.initialized = true then res x else z) = res x := by
        cases h : c.initialized with
        | true => simp
        | false => simp [(hz h).2.1]
      have e2 : (if c.initialized = true then M (res x) else r) = b - A x := by
        rw [← S.res_eq x]
        cases h : c.initialized with
        | true => simp
        | false => obtain ⟨_, h1, h2, _, _⟩ := hz h; simp [h2, h1]
      simp only [e1, e2]
      by_cases hst : stop iter (dot (res x) (b - A x)) (dot (res x) (res x)) = true
      · rw [if_pos hst]
        exact ⟨_, _, _, rfl, _, hst⟩
      · rw [if_neg hst]
        have hzr : dot (res x) (b - A x) ≠ 0 := by
          intro e; rw [e] at hst; exact hst (hstop _ _)
        have hdir : ∃ p m, (if c.initialized = true then
              { c with p := (dot (res x) (b - A x) / (c.zrDot + 0)) • c.p + res x, pHistorySize := c.pHistorySize + 1,
                       Ap := A ((dot (res x) (b - A x) / (c.zrDot + 0)) • c.p + res x) } else c) =
              { c with p := p, pHistorySize := m, Ap := A p } ∧
              ((h = [] ∧ p = res x) ∨ ∃ e, h.head? = some e ∧ p = (dot (res x) (b - A x) / dot e.1 (M e.1)) • e.2 + res x) := by
          by_cases hi : c.initialized = true
          · obtain ⟨e, h1, h2, h3⟩ := hh hi
            refine ⟨_, _, if_pos hi, Or.inr ⟨e, h1, ?_⟩⟩
            rw [h2, h3, add_zero]
          · obtain ⟨h0, h1, h2, h3, h4⟩ := hz (by simpa using hi)
            refine ⟨c.p, c.pHistorySize, ?_, Or.inl ⟨h0, h3.trans h1⟩⟩
            rw [if_neg hi, ← h4]
        obtain ⟨p, m, ep, hp⟩ := hdir
        simp only [ep]
        have hpp : dot p (A p) ≠ 0 := by
          intro e0
          have hp0 : p = 0 := hA p e0
          apply hzr
          rcases hp with ⟨_, h2⟩ | ⟨e, h1, h2⟩
          · rw [← h2, hp0]; simp
          · have : dot p (b - A x) = 0 := by rw [hp0]; simp
            rw [h2] at this
            simp only [map_add, LinearMap.add_apply, map_smul, LinearMap.smul_apply, smul_eq_mul] at this
            rw [C.dir e (List.mem_of_mem_head? h1)] at this
            simpa using this
        have C' := C.step S.symm S.A_symm S.M_symm h (b - A x) (res x) p (S.res_eq x) hzr hpp hp
        have er : b - A x - (dot (res x) (b - A x) / dot p (A p)) • A p =
            b - A (x + (dot (res x) (b - A x) / (dot p (A p) + 0)) • p) := by
          rw [map_add, map_smul, add_zero]; abel
        rw [er] at C'
        exact ih _ _ _ _ _ _ _ C' (by simp) (fun _ => ⟨_, rfl, rfl, by simp only [S.res_eq]⟩) (by simp; omega)
  unfold pcgSolve
  rw [if_neg (by simp [hc])]
  refine key niter 1 _ x _ _ [] [] ⟨by simp, by simp, by simp, by simp, by simp, by simp, by simp⟩ (fun _ => ⟨rfl, rfl, rfl, rfl, rfl⟩) ?_ (by simpa using hn)
  intro h
  simp [hc] at h

/-- With a definite `M` and the rule "stop when `z·r` is zero", the returned vector solves the system. -/
theorem pcg_solves [FiniteDimensional K V] (S : System dot A M res b) (hA : ∀ u, dot u (A u) = 0 → u = 0)
    (hM : ∀ u, dot u (M u) = 0 → u = 0) (niter : Nat) (hn : Module.finrank K V < niter) (c : PCG K V) (hc : c.initialized = false) (x : V) :
    ∃ c' y log, pcgSolve (sysOps dot A M res) 0 (fun _ zr _ => decide (zr = 0)) niter c x = (c', y, true, log) ∧ A y = b := by
  obtain ⟨c', y, log, h1, i, h2⟩ := pcg_terminates S hA (fun _ zr _ => decide (zr = 0)) (by simp) niter hn c hc x
  refine ⟨c', y, log, h1, ?_⟩
  have h3 : dot (res y) (b - A y) = 0 := by simpa using h2
  rw [← S.res_eq] at h3
  have h4 := S.res_eq y
  rw [hM _ h3, map_zero] at h4
  exact (sub_eq_zero.mp h4.symm).symm

/-- a system on the plane that is not diagonal, with a preconditioner that is not a multiple of the identity -/
def demoDot : (ℚ × ℚ) →ₗ[ℚ] (ℚ × ℚ) →ₗ[ℚ] ℚ :=
  LinearMap.mk₂ ℚ (fun u v => u.1 * v.1 + u.2 * v.2) (by intros; simp; ring) (by intros; simp; ring) (by intros; simp; ring)
    (by intros; simp; ring)

def demoA : (ℚ × ℚ) →ₗ[ℚ] (ℚ × ℚ) :=
  { toFun := fun u => (2 * u.1 + u.2, u.1 + 3 * u.2), map_add' := by intros; ext <;> simp <;> ring, map_smul' := by intros; ext <;> simp <;> ring }

def demoM : (ℚ × ℚ) →ₗ[ℚ] (ℚ × ℚ) :=
  { toFun := fun u => (2 * u.1, 3 * u.2), map_add' := by intros; ext <;> simp <;> ring, map_smul' := by intros; ext <;> simp <;> ring }

theorem demoSystem (b : ℚ × ℚ) : System demoDot demoA demoM (fun x => ((b - demoA x).1 / 2, (b - demoA x).2 / 3)) b where
  symm := by intro u v; simp [demoDot]; ring
  A_symm := by intro u v; simp [demoDot, demoA]; ring
  M_symm := by intro u v; simp [demoDot, demoM]; ring
  A_nonneg := by intro u; simp [demoDot, demoA]; nlinarith [sq_nonneg (u.1 + u.2), sq_nonneg u.1, sq_nonneg u.2]
  M_nonneg := by intro u; simp [demoDot, demoM]; nlinarith [sq_nonneg u.1, sq_nonneg u.2]
  res_eq := by intro x; ext <;> simp [demoM] <;> ring

example (b x : ℚ × ℚ) : ∃ c' y log, pcgSolve (sysOps demoDot demoA demoM (fun x => ((b - demoA x).1 / 2, (b - demoA x).2 / 3))) 0
    (fun _ zr _ => decide (zr = 0)) 3 (PCG.mk' 0 0 0) x = (c', y, true, log) ∧ demoA y = b := by
  refine pcg_solves (demoSystem b) ?_ ?_ 3 (by simp) _ rfl x
  · intro u h
    simp [demoDot, demoA] at h
    have h1 : u.1 = 0 := by nlinarith [sq_nonneg (u.1 + u.2), sq_nonneg u.1, sq_nonneg u.2]
    have h2 : u.2 = 0 := by nlinarith [sq_nonneg (u.1 + u.2), sq_nonneg u.1, sq_nonneg u.2]
    exact Prod.ext h1 h2
  · intro u h
    simp [demoDot, demoM] at h
    have h1 : u.1 = 0 := by nlinarith [sq_nonneg u.1, sq_nonneg u.2]
    have h2 : u.2 = 0 := by nlinarith [sq_nonneg u.1, sq_nonneg u.2]
    exact Prod.ext h1 h2

end DNDSR.Krylov
