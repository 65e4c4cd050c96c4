import Verif.Model.Vortex
import Verif.Spec.Vortex
import Mathlib.Analysis.SpecialFunctions.ExpDeriv
import Mathlib.Analysis.SpecialFunctions.Pow.Deriv
import Mathlib.Analysis.Real.Pi.Bounds
import Mathlib.Analysis.Complex.ExponentialBounds
import Mathlib.Tactic.Linarith
import Mathlib.Tactic.Ring
import Mathlib.Tactic.FieldSimp
import Mathlib.Tactic.NormNum
import Mathlib.Tactic.FinCases

/-!
# C109: the isentropic vortices are exact solutions of the Euler equations
-/

namespace DNDSR.Vortex

/-- temperature, rotation, density and pressure as functions of the square of the distance -/
noncomputable def tem (g chi q : ℝ) : ℝ := -(g - 1) / (8 * g * Real.pi ^ 2) * chi ^ 2 * Real.exp (1 - q) + 1
noncomputable def rot (chi q : ℝ) : ℝ := chi / 2 / Real.pi * Real.exp ((1 - q) / 2)
noncomputable def den (g chi q : ℝ) : ℝ := tem g chi q ^ (1 / (g - 1))
noncomputable def pre (g chi q : ℝ) : ℝ := tem g chi q * den g chi q

/-- the square of the distance -/
def dsq (X Y : ℝ) : ℝ := X ^ 2 + Y ^ 2

/-- the state in terms of the offsets from the center -/
noncomputable def st (g chi base X Y : ℝ) : Fin 4 → ℝ :=
  ![den g chi (dsq X Y), den g chi (dsq X Y) * (base - rot chi (dsq X Y) * Y), den g chi (dsq X Y) * (base + rot chi (dsq X Y) * X),
    0.5 * ((base - rot chi (dsq X Y) * Y) ^ 2 + (base + rot chi (dsq X Y) * X) ^ 2) * den g chi (dsq X Y) + pre g chi (dsq X Y) / (g - 1)]

theorem state_eq (g chi base xyc px py : ℝ) : state g chi base xyc px py = st g chi base (px - xyc) (py - xyc) := by
  have h : Real.sqrt ((px - xyc) ^ 2 + (py - xyc) ^ 2) ^ 2 = dsq (px - xyc) (py - xyc) := Real.sq_sqrt (by positivity)
  simp only [state, h, st, den, pre, tem, rot, div_one]
  ext i
  fin_cases i
  · rfl
  · simp; left; ring
  · simp; left; ring
  · simp; left; left; ring

/-- the condition under which the temperature is positive everywhere -/
def Weak (g chi : ℝ) : Prop := 1 < g ∧ (g - 1) * chi ^ 2 * Real.exp 1 < 8 * g * Real.pi ^ 2

theorem tem_pos {g chi : ℝ} (h : Weak g chi) {q : ℝ} (hq : 0 ≤ q) : 0 < tem g chi q := by
  obtain ⟨hg, h⟩ := h
  have hpi := Real.pi_pos
  have hD : 0 < 8 * g * Real.pi ^ 2 := by positivity
  have he : Real.exp (1 - q) ≤ Real.exp 1 := Real.exp_le_exp.mpr (by linarith)
  have h1 : (g - 1) * chi ^ 2 * Real.exp (1 - q) ≤ (g - 1) * chi ^ 2 * Real.exp 1 :=
    mul_le_mul_of_nonneg_left he (mul_nonneg (by linarith) (sq_nonneg _))
  have h2 : (g - 1) * chi ^ 2 * Real.exp (1 - q) / (8 * g * Real.pi ^ 2) < 1 := (div_lt_one hD).mpr (by linarith)
  have : tem g chi q = 1 - (g - 1) * chi ^ 2 * Real.exp (1 - q) / (8 * g * Real.pi ^ 2) := by unfold tem; ring
  rw [this]; linarith

theorem dsq_nonneg (X Y : ℝ) : 0 ≤ dsq X Y := by unfold dsq; positivity

theorem den_pos {g chi : ℝ} (h : Weak g chi) (X Y : ℝ) : 0 < den g chi (dsq X Y) := Real.rpow_pos_of_pos (tem_pos h (dsq_nonneg X Y)) _

/-- **C109** The field has the entropy one: the pressure is the density to the power of the ratio of heats. -/
theorem isentropic {g chi : ℝ} (h : Weak g chi) (base xyc px py : ℝ) :
    0 < state g chi base xyc px py 0 ∧ pressure g (state g chi base xyc px py) = state g chi base xyc px py 0 ^ g := by
  rw [state_eq]
  have hd := den_pos h (px - xyc) (py - xyc)
  have ht := tem_pos h (dsq_nonneg (px - xyc) (py - xyc))
  have hg : g - 1 ≠ 0 := by have := h.1; linarith
  refine ⟨hd, ?_⟩
  have hp : pressure g (st g chi base (px - xyc) (py - xyc)) = pre g chi (dsq (px - xyc) (py - xyc)) := by
    simp only [pressure, st, Matrix.cons_val]
    generalize rot chi (dsq (px - xyc) (py - xyc)) = k
    generalize pre g chi (dsq (px - xyc) (py - xyc)) = p
    generalize den g chi (dsq (px - xyc) (py - xyc)) = d at *
    field_simp
    ring
  rw [hp]
  show pre g chi (dsq _ _) = den g chi (dsq _ _) ^ g
  unfold pre den
  rw [← Real.rpow_mul ht.le]
  nth_rewrite 1 [← Real.rpow_one (tem g chi (dsq (px - xyc) (py - xyc)))]
  rw [← Real.rpow_add ht]
  congr 1
  field_simp
  ring

/-- derivatives of the four functions; the pressure balances the rotation -/
theorem derivs {g chi : ℝ} (h : Weak g chi) {q : ℝ} (hq : 0 ≤ q) : ∃ d k : ℝ, HasDerivAt (den g chi) d q ∧ HasDerivAt (rot chi) k q ∧
    HasDerivAt (pre g chi) (den g chi q * rot chi q ^ 2 / 2) q := by
  have ht := tem_pos h hq
  have hg : g - 1 ≠ 0 := by have := h.1; linarith
  have hg0 : g ≠ 0 := by have := h.1; linarith
  have hpi := Real.pi_ne_zero
  have e1 : HasDerivAt (fun q : ℝ => Real.exp (1 - q)) (-Real.exp (1 - q)) q := by
    have := ((hasDerivAt_id q).const_sub 1).exp
    simpa using this
  have e2 : HasDerivAt (fun q : ℝ => Real.exp ((1 - q) / 2)) (-(Real.exp ((1 - q) / 2) / 2)) q := by
    have := (((hasDerivAt_id q).const_sub 1).div_const 2).exp
    refine this.congr_deriv ?_
    simp; ring
  have eT : HasDerivAt (tem g chi) ((g - 1) / (8 * g * Real.pi ^ 2) * chi ^ 2 * Real.exp (1 - q)) q := by
    have := (e1.const_mul (-(g - 1) / (8 * g * Real.pi ^ 2) * chi ^ 2)).add_const 1
    refine this.congr_deriv ?_
    ring
  have eD := eT.rpow_const (p := 1 / (g - 1)) (Or.inl ht.ne')
  refine ⟨_, _, eD, e2.const_mul (chi / 2 / Real.pi), ?_⟩
  refine (eT.mul eD).congr_deriv ?_
  have hr : rot chi q ^ 2 = chi ^ 2 / (4 * Real.pi ^ 2) * Real.exp (1 - q) := by
    unfold rot
    rw [mul_pow, ← Real.exp_nat_mul]
    congr 1
    · ring
    · congr 1; push_cast; ring
  have hm : tem g chi q * tem g chi q ^ (1 / (g - 1) - 1) = den g chi q := by
    nth_rewrite 1 [← Real.rpow_one (tem g chi q)]
    rw [← Real.rpow_add ht]
    unfold den; congr 1; ring
  rw [hr]
  have : tem g chi q * ((g - 1) / (8 * g * Real.pi ^ 2) * chi ^ 2 * Real.exp (1 - q) * (1 / (g - 1)) * tem g chi q ^ (1 / (g - 1) - 1)) =
      (g - 1) / (8 * g * Real.pi ^ 2) * chi ^ 2 * Real.exp (1 - q) * (1 / (g - 1)) * den g chi q := by
    rw [← hm]; ring
  show _ * tem g chi q ^ (1 / (g - 1)) + _ = _
  rw [this]
  show _ * den g chi q + _ = _
  field_simp
  ring

/-- the fluxes of the state -/
theorem fluxX_st {g chi : ℝ} (h : Weak g chi) (base X Y : ℝ) : fluxX g (st g chi base X Y) =
    ![den g chi (dsq X Y) * (base - rot chi (dsq X Y) * Y),
      den g chi (dsq X Y) * (base - rot chi (dsq X Y) * Y) ^ 2 + pre g chi (dsq X Y),
      den g chi (dsq X Y) * (base - rot chi (dsq X Y) * Y) * (base + rot chi (dsq X Y) * X),
      (0.5 * ((base - rot chi (dsq X Y) * Y) ^ 2 + (base + rot chi (dsq X Y) * X) ^ 2) * den g chi (dsq X Y) + g / (g - 1) * pre g chi (dsq X Y)) *
        (base - rot chi (dsq X Y) * Y)] := by
  have hd := (den_pos h X Y).ne'
  have hg : g - 1 ≠ 0 := by have := h.1; linarith
  ext i
  simp only [fluxX, pressure, st, Matrix.cons_val]
  generalize rot chi (dsq X Y) = k
  generalize pre g chi (dsq X Y) = p
  generalize den g chi (dsq X Y) = d at *
  fin_cases i <;> simp <;> field_simp <;> ring

theorem fluxY_st {g chi : ℝ} (h : Weak g chi) (base X Y : ℝ) : fluxY g (st g chi base X Y) =
    ![den g chi (dsq X Y) * (base + rot chi (dsq X Y) * X),
      den g chi (dsq X Y) * (base - rot chi (dsq X Y) * Y) * (base + rot chi (dsq X Y) * X),
      den g chi (dsq X Y) * (base + rot chi (dsq X Y) * X) ^ 2 + pre g chi (dsq X Y),
      (0.5 * ((base - rot chi (dsq X Y) * Y) ^ 2 + (base + rot chi (dsq X Y) * X) ^ 2) * den g chi (dsq X Y) + g / (g - 1) * pre g chi (dsq X Y)) *
        (base + rot chi (dsq X Y) * X)] := by
  have hd := (den_pos h X Y).ne'
  have hg : g - 1 ≠ 0 := by have := h.1; linarith
  ext i
  simp only [fluxY, pressure, st, Matrix.cons_val]
  generalize rot chi (dsq X Y) = k
  generalize pre g chi (dsq X Y) = p
  generalize den g chi (dsq X Y) = d at *
  fin_cases i <;> simp <;> field_simp <;> ring

/-- along a path through the offsets, the density, the rotation and the pressure change by the chain rule -/
theorem chain {f : ℝ → ℝ} {f' : ℝ} {X Y : ℝ → ℝ} {s X' Y' : ℝ} (hf : HasDerivAt f f' (dsq (X s) (Y s))) (hX : HasDerivAt X X' s) (hY : HasDerivAt Y Y' s) :
    HasDerivAt (fun s => f (dsq (X s) (Y s))) (f' * (2 * X s * X' + 2 * Y s * Y')) s := by
  have hq : HasDerivAt (fun s => dsq (X s) (Y s)) (2 * X s * X' + 2 * Y s * Y') s := by
    have := (hX.fun_pow 2).fun_add (hY.fun_pow 2)
    refine this.congr_deriv ?_
    norm_num
  exact hf.comp s hq

section Balance

variable {D K P : ℝ → ℝ} {d k q X Y b e : ℝ}

/-- the velocities and their derivatives along a path -/
theorem vel {X Y : ℝ → ℝ} {s X' Y' : ℝ} (hK : HasDerivAt K k (dsq (X s) (Y s))) (hX : HasDerivAt X X' s) (hY : HasDerivAt Y Y' s) (b : ℝ) :
    HasDerivAt (fun s => b - K (dsq (X s) (Y s)) * Y s) (-(k * (2 * X s * X' + 2 * Y s * Y') * Y s + K (dsq (X s) (Y s)) * Y')) s ∧
      HasDerivAt (fun s => b + K (dsq (X s) (Y s)) * X s) (k * (2 * X s * X' + 2 * Y s * Y') * X s + K (dsq (X s) (Y s)) * X') s :=
  ⟨((chain hK hX hY).fun_mul hY).const_sub b, ((chain hK hX hY).fun_mul hX).const_add b⟩

/-- products of a density with velocities -/
theorem prod1 {f u : ℝ → ℝ} {f' u' s : ℝ} (hf : HasDerivAt f f' s) (hu : HasDerivAt u u' s) :
    HasDerivAt (fun s => f s * u s) (f' * u s + f s * u') s := hf.fun_mul hu

theorem prod2 {f u v : ℝ → ℝ} {f' u' v' s : ℝ} (hf : HasDerivAt f f' s) (hu : HasDerivAt u u' s) (hv : HasDerivAt v v' s) :
    HasDerivAt (fun s => f s * u s * v s) ((f' * u s + f s * u') * v s + f s * u s * v') s := (hf.fun_mul hu).fun_mul hv

theorem square {f u p : ℝ → ℝ} {f' u' p' s : ℝ} (hf : HasDerivAt f f' s) (hu : HasDerivAt u u' s) (hp : HasDerivAt p p' s) :
    HasDerivAt (fun s => f s * u s ^ 2 + p s) (f' * u s ^ 2 + f s * (2 * u s * u') + p') s := by
  have h2 : HasDerivAt (fun s => u s ^ 2) (2 * u s * u') s := by
    refine (hu.fun_pow 2).congr_deriv ?_
    norm_num
  exact (hf.fun_mul h2).fun_add hp

theorem energy {f u v p : ℝ → ℝ} {f' u' v' p' s : ℝ} (hf : HasDerivAt f f' s) (hu : HasDerivAt u u' s) (hv : HasDerivAt v v' s) (hp : HasDerivAt p p' s)
    (c : ℝ) : HasDerivAt (fun s => 0.5 * (u s ^ 2 + v s ^ 2) * f s + c * p s)
      (0.5 * (2 * u s * u' + 2 * v s * v') * f s + 0.5 * (u s ^ 2 + v s ^ 2) * f' + c * p') s := by
  have h2 : ∀ {w : ℝ → ℝ} {w' : ℝ}, HasDerivAt w w' s → HasDerivAt (fun s => w s ^ 2) (2 * w s * w') s := by
    intro w w' hw
    refine (hw.fun_pow 2).congr_deriv ?_
    norm_num
  exact ((((h2 hu).fun_add (h2 hv)).const_mul 0.5).fun_mul hf).fun_add (hp.const_mul c)

/-- three paths through one pair of offsets: in time, and along the two axes -/
structure Paths (b X Y t x y : ℝ) (Xt Yt Xx Yx Xy Yy : ℝ → ℝ) : Prop where
  at_t : Xt t = X ∧ Yt t = Y
  at_x : Xx x = X ∧ Yx x = Y
  at_y : Xy y = X ∧ Yy y = Y
  dt : HasDerivAt Xt (-b) t ∧ HasDerivAt Yt (-b) t
  dx : HasDerivAt Xx 1 x ∧ HasDerivAt Yx 0 x
  dy : HasDerivAt Xy 0 y ∧ HasDerivAt Yy 1 y

variable {t x y : ℝ} {Xt Yt Xx Yx Xy Yy : ℝ → ℝ}

theorem mass (p : Paths b X Y t x y Xt Yt Xx Yx Xy Yy) (hD : HasDerivAt D d (dsq X Y)) (hK : HasDerivAt K k (dsq X Y)) :
    ∃ a' b' c', HasDerivAt (fun s => D (dsq (Xt s) (Yt s))) a' t ∧
      HasDerivAt (fun s => D (dsq (Xx s) (Yx s)) * (b - K (dsq (Xx s) (Yx s)) * Yx s)) b' x ∧
      HasDerivAt (fun s => D (dsq (Xy s) (Yy s)) * (b + K (dsq (Xy s) (Yy s)) * Xy s)) c' y ∧ a' + b' + c' = 0 := by
  obtain ⟨⟨t1, t2⟩, ⟨x1, x2⟩, ⟨y1, y2⟩, dt, dx, dy⟩ := p
  refine ⟨_, _, _, chain (by rw [t1, t2]; exact hD) dt.1 dt.2,
    prod1 (chain (by rw [x1, x2]; exact hD) dx.1 dx.2) (vel (by rw [x1, x2]; exact hK) dx.1 dx.2 b).1,
    prod1 (chain (by rw [y1, y2]; exact hD) dy.1 dy.2) (vel (by rw [y1, y2]; exact hK) dy.1 dy.2 b).2, ?_⟩
  rw [t1, t2, x1, x2, y1, y2]
  ring

theorem momX (p : Paths b X Y t x y Xt Yt Xx Yx Xy Yy) (hD : HasDerivAt D d (dsq X Y)) (hK : HasDerivAt K k (dsq X Y))
    (hP : HasDerivAt P (D (dsq X Y) * K (dsq X Y) ^ 2 / 2) (dsq X Y)) :
    ∃ a' b' c', HasDerivAt (fun s => D (dsq (Xt s) (Yt s)) * (b - K (dsq (Xt s) (Yt s)) * Yt s)) a' t ∧
      HasDerivAt (fun s => D (dsq (Xx s) (Yx s)) * (b - K (dsq (Xx s) (Yx s)) * Yx s) ^ 2 + P (dsq (Xx s) (Yx s))) b' x ∧
      HasDerivAt (fun s => D (dsq (Xy s) (Yy s)) * (b - K (dsq (Xy s) (Yy s)) * Yy s) * (b + K (dsq (Xy s) (Yy s)) * Xy s)) c' y ∧
      a' + b' + c' = 0 := by
  obtain ⟨⟨t1, t2⟩, ⟨x1, x2⟩, ⟨y1, y2⟩, dt, dx, dy⟩ := p
  refine ⟨_, _, _, prod1 (chain (by rw [t1, t2]; exact hD) dt.1 dt.2) (vel (by rw [t1, t2]; exact hK) dt.1 dt.2 b).1,
    square (chain (by rw [x1, x2]; exact hD) dx.1 dx.2) (vel (by rw [x1, x2]; exact hK) dx.1 dx.2 b).1 (chain (by rw [x1, x2]; exact hP) dx.1 dx.2),
    prod2 (chain (by rw [y1, y2]; exact hD) dy.1 dy.2) (vel (by rw [y1, y2]; exact hK) dy.1 dy.2 b).1
      (vel (by rw [y1, y2]; exact hK) dy.1 dy.2 b).2, ?_⟩
  rw [t1, t2, x1, x2, y1, y2]
  ring

theorem momY (p : Paths b X Y t x y Xt Yt Xx Yx Xy Yy) (hD : HasDerivAt D d (dsq X Y)) (hK : HasDerivAt K k (dsq X Y))
    (hP : HasDerivAt P (D (dsq X Y) * K (dsq X Y) ^ 2 / 2) (dsq X Y)) :
    ∃ a' b' c', HasDerivAt (fun s => D (dsq (Xt s) (Yt s)) * (b + K (dsq (Xt s) (Yt s)) * Xt s)) a' t ∧
      HasDerivAt (fun s => D (dsq (Xx s) (Yx s)) * (b - K (dsq (Xx s) (Yx s)) * Yx s) * (b + K (dsq (Xx s) (Yx s)) * Xx s)) b' x ∧
      HasDerivAt (fun s => D (dsq (Xy s) (Yy s)) * (b + K (dsq (Xy s) (Yy s)) * Xy s) ^ 2 + P (dsq (Xy s) (Yy s))) c' y ∧
      a' + b' + c' = 0 := by
  obtain ⟨⟨t1, t2⟩, ⟨x1, x2⟩, ⟨y1, y2⟩, dt, dx, dy⟩ := p
  refine ⟨_, _, _, prod1 (chain (by rw [t1, t2]; exact hD) dt.1 dt.2) (vel (by rw [t1, t2]; exact hK) dt.1 dt.2 b).2,
    prod2 (chain (by rw [x1, x2]; exact hD) dx.1 dx.2) (vel (by rw [x1, x2]; exact hK) dx.1 dx.2 b).1
      (vel (by rw [x1, x2]; exact hK) dx.1 dx.2 b).2,
    square (chain (by rw [y1, y2]; exact hD) dy.1 dy.2) (vel (by rw [y1, y2]; exact hK) dy.1 dy.2 b).2 (chain (by rw [y1, y2]; exact hP) dy.1 dy.2), ?_⟩
  rw [t1, t2, x1, x2, y1, y2]
  ring

theorem enrg (p : Paths b X Y t x y Xt Yt Xx Yx Xy Yy) (hD : HasDerivAt D d (dsq X Y)) (hK : HasDerivAt K k (dsq X Y))
    (hP : HasDerivAt P (D (dsq X Y) * K (dsq X Y) ^ 2 / 2) (dsq X Y)) (c : ℝ) :
    ∃ a' b' c', HasDerivAt (fun s => 0.5 * ((b - K (dsq (Xt s) (Yt s)) * Yt s) ^ 2 + (b + K (dsq (Xt s) (Yt s)) * Xt s) ^ 2) * D (dsq (Xt s) (Yt s)) +
          c * P (dsq (Xt s) (Yt s))) a' t ∧
      HasDerivAt (fun s => (0.5 * ((b - K (dsq (Xx s) (Yx s)) * Yx s) ^ 2 + (b + K (dsq (Xx s) (Yx s)) * Xx s) ^ 2) * D (dsq (Xx s) (Yx s)) +
          (c + 1) * P (dsq (Xx s) (Yx s))) * (b - K (dsq (Xx s) (Yx s)) * Yx s)) b' x ∧
      HasDerivAt (fun s => (0.5 * ((b - K (dsq (Xy s) (Yy s)) * Yy s) ^ 2 + (b + K (dsq (Xy s) (Yy s)) * Xy s) ^ 2) * D (dsq (Xy s) (Yy s)) +
          (c + 1) * P (dsq (Xy s) (Yy s))) * (b + K (dsq (Xy s) (Yy s)) * Xy s)) c' y ∧ a' + b' + c' = 0 := by
  obtain ⟨⟨t1, t2⟩, ⟨x1, x2⟩, ⟨y1, y2⟩, dt, dx, dy⟩ := p
  have vt := vel (K := K) (k := k) (by rw [t1, t2]; exact hK) dt.1 dt.2 b
  have vx := vel (K := K) (k := k) (by rw [x1, x2]; exact hK) dx.1 dx.2 b
  have vy := vel (K := K) (k := k) (by rw [y1, y2]; exact hK) dy.1 dy.2 b
  have Dt := chain (f := D) (f' := d) (by rw [t1, t2]; exact hD) dt.1 dt.2
  have Dx := chain (f := D) (f' := d) (by rw [x1, x2]; exact hD) dx.1 dx.2
  have Dy := chain (f := D) (f' := d) (by rw [y1, y2]; exact hD) dy.1 dy.2
  have Pt := chain (f := P) (by rw [t1, t2]; exact hP) dt.1 dt.2
  have Px := chain (f := P) (by rw [x1, x2]; exact hP) dx.1 dx.2
  have Py := chain (f := P) (by rw [y1, y2]; exact hP) dy.1 dy.2
  refine ⟨_, _, _, energy Dt vt.1 vt.2 Pt c, prod1 (energy Dx vx.1 vx.2 Px (c + 1)) vx.1, prod1 (energy Dy vy.1 vy.2 Py (c + 1)) vy.2, ?_⟩
  rw [t1, t2, x1, x2, y1, y2]
  ring

end Balance

/-- a state that moves with its velocity at infinity solves the equations -/
theorem st_solves {g chi : ℝ} (h : Weak g chi) (base x0 y0 x y t : ℝ) :
    EulerAt g (fun x y t => st g chi base (x - base * t - x0) (y - base * t - y0)) x y t := by
  obtain ⟨d, k, hD, hK, hP⟩ := derivs h (dsq_nonneg (x - base * t - x0) (y - base * t - y0))
  have hg : g - 1 ≠ 0 := by have := h.1; linarith
  have p : Paths base (x - base * t - x0) (y - base * t - y0) t x y (fun s => x - base * s - x0) (fun s => y - base * s - y0)
      (fun s => s - base * t - x0) (fun _ => y - base * t - y0) (fun _ => x - base * t - x0) (fun s => s - base * t - y0) :=
    ⟨⟨rfl, rfl⟩, ⟨rfl, rfl⟩, ⟨rfl, rfl⟩,
      ⟨by simpa using (((hasDerivAt_id t).const_mul base).const_sub x).sub_const x0,
        by simpa using (((hasDerivAt_id t).const_mul base).const_sub y).sub_const y0⟩,
      ⟨((hasDerivAt_id x).sub_const _).sub_const x0, hasDerivAt_const _ _⟩,
      ⟨hasDerivAt_const _ _, ((hasDerivAt_id y).sub_const _).sub_const y0⟩⟩
  have q : ∀ X Y, st g chi base X Y 3 = 0.5 * ((base - rot chi (dsq X Y) * Y) ^ 2 + (base + rot chi (dsq X Y) * X) ^ 2) * den g chi (dsq X Y) +
      1 / (g - 1) * pre g chi (dsq X Y) := by
    intro X Y
    show _ + _ / _ = _
    ring
  have e : g / (g - 1) = 1 / (g - 1) + 1 := by field_simp; ring
  intro i
  simp only [fluxX_st h, fluxY_st h]
  fin_cases i
  · exact mass p hD hK
  · exact momX p hD hK hP
  · exact momY p hD hK hP
  · have := enrg p hD hK hP (1 / (g - 1))
    rw [← e] at this
    simp only [← q] at this
    exact this

end DNDSR.Vortex
