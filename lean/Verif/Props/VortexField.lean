import Verif.Props.Vortex
import Mathlib.Topology.Algebra.Order.Floor
import Mathlib.Topology.Constructions

/-!
# C109: the fields that the program compares with
-/

namespace DNDSR.Vortex

/-- fields that agree near a point solve the equations together -/
theorem EulerAt.congr {g : ℝ} {U V : ℝ → ℝ → ℝ → Fin 4 → ℝ} {x y t : ℝ}
    (h : ∀ᶠ p : ℝ × ℝ × ℝ in nhds (x, y, t), U p.1 p.2.1 p.2.2 = V p.1 p.2.1 p.2.2) (hV : EulerAt g V x y t) : EulerAt g U x y t := by
  intro i
  obtain ⟨a, b, c, h1, h2, h3, h4⟩ := hV i
  have c1 : Filter.Tendsto (fun s : ℝ => (x, y, s)) (nhds t) (nhds (x, y, t)) := Continuous.tendsto (by fun_prop) t
  have c2 : Filter.Tendsto (fun s : ℝ => (s, y, t)) (nhds x) (nhds (x, y, t)) := Continuous.tendsto (by fun_prop) x
  have c3 : Filter.Tendsto (fun s : ℝ => (x, s, t)) (nhds y) (nhds (x, y, t)) := Continuous.tendsto (by fun_prop) y
  refine ⟨a, b, c, h1.congr_of_eventuallyEq ?_, h2.congr_of_eventuallyEq ?_, h3.congr_of_eventuallyEq ?_, h4⟩
  · filter_upwards [c1.eventually h] with s hs
    rw [hs]
  · filter_upwards [c2.eventually h] with s hs
    rw [hs]
  · filter_upwards [c3.eventually h] with s hs
    rw [hs]

/-- away from the ends of the period the remainder is a shift -/
theorem floatMod_near {L : ℝ} (hL : 0 < L) {a : ℝ} (ha : ∀ m : ℤ, a ≠ m * L) : ∃ m : ℤ, ∀ᶠ s in nhds a, floatMod s L = s - m * L := by
  have h1 : (⌊a / L⌋ : ℝ) * L < a := by
    refine lt_of_le_of_ne ?_ (Ne.symm (ha _))
    exact (le_div_iff₀ hL).mp (Int.floor_le (a / L))
  have h2 : a < ((⌊a / L⌋ : ℝ) + 1) * L := (div_lt_iff₀ hL).mp (Int.lt_floor_add_one (a / L))
  refine ⟨⌊a / L⌋, ?_⟩
  filter_upwards [lt_mem_nhds h1, gt_mem_nhds h2] with s hs1 hs2
  have : ⌊s / L⌋ = ⌊a / L⌋ := by
    rw [Int.floor_eq_iff]
    exact ⟨(le_div_iff₀ hL).mpr hs1.le, (div_lt_iff₀ hL).mpr hs2⟩
  rw [floatMod, this]

/-- the remainder has its period and lies in it -/
theorem floatMod_spec {L : ℝ} (hL : 0 < L) (a : ℝ) : 0 ≤ floatMod a L ∧ floatMod a L < L ∧ ∀ m : ℤ, floatMod (a + m * L) L = floatMod a L := by
  refine ⟨?_, ?_, fun m => ?_⟩
  · have := (le_div_iff₀ hL).mp (Int.floor_le (a / L))
    unfold floatMod; linarith
  · have := (div_lt_iff₀ hL).mp (Int.lt_floor_add_one (a / L))
    unfold floatMod; linarith
  · unfold floatMod
    rw [add_div, mul_div_assoc, div_self hL.ne', mul_one, Int.floor_add_intCast]
    push_cast; ring

/-- **C109** The moving vortex solves the Euler equations inside its periods. -/
theorem vortex10_solves {g chi : ℝ} (h : Weak g chi) (x y t : ℝ) (hx : ∀ m : ℤ, x - t ≠ m * 10) (hy : ∀ m : ℤ, y - t ≠ m * 10) :
    EulerAt g (vortex10 g chi) x y t := by
  obtain ⟨m, hm⟩ := floatMod_near (by norm_num : (0 : ℝ) < 10) hx
  obtain ⟨n, hn⟩ := floatMod_near (by norm_num : (0 : ℝ) < 10) hy
  have c1 : Filter.Tendsto (fun p : ℝ × ℝ × ℝ => p.1 - p.2.2) (nhds (x, y, t)) (nhds (x - t)) := Continuous.tendsto (by fun_prop) (x, y, t)
  have c2 : Filter.Tendsto (fun p : ℝ × ℝ × ℝ => p.2.1 - p.2.2) (nhds (x, y, t)) (nhds (y - t)) := Continuous.tendsto (by fun_prop) (x, y, t)
  refine EulerAt.congr ?_ (st_solves h 1 (m * 10 + 5) (n * 10 + 5) x y t)
  filter_upwards [c1.eventually hm, c2.eventually hn] with p h1 h2
  rw [vortex10, state_eq, h1, h2]
  congr 1 <;> ring

/-- **C109** So does the vortex in the larger period. -/
theorem vortex30_solves {g : ℝ} (h : Weak g 5) (x y t : ℝ) (hx : ∀ m : ℤ, x - t + 10 ≠ m * 30) (hy : ∀ m : ℤ, y - t + 10 ≠ m * 30) :
    EulerAt g (vortex30 g) x y t := by
  obtain ⟨m, hm⟩ := floatMod_near (by norm_num : (0 : ℝ) < 30) hx
  obtain ⟨n, hn⟩ := floatMod_near (by norm_num : (0 : ℝ) < 30) hy
  have c1 : Filter.Tendsto (fun p : ℝ × ℝ × ℝ => p.1 - p.2.2 + 10) (nhds (x, y, t)) (nhds (x - t + 10)) := Continuous.tendsto (by fun_prop) (x, y, t)
  have c2 : Filter.Tendsto (fun p : ℝ × ℝ × ℝ => p.2.1 - p.2.2 + 10) (nhds (x, y, t)) (nhds (y - t + 10)) := Continuous.tendsto (by fun_prop) (x, y, t)
  refine EulerAt.congr ?_ (st_solves h 1 (m * 30 + 5) (n * 30 + 5) x y t)
  filter_upwards [c1.eventually hm, c2.eventually hn] with p h1 h2
  rw [vortex30, state_eq, h1, h2]
  congr 1 <;> ring

/-- **C109** The vortex at rest solves them everywhere. -/
theorem vortexCent_solves {g : ℝ} (h : Weak g 5) (x y t : ℝ) : EulerAt g (vortexCent g) x y t := by
  have := st_solves h 0 0 0 x y t
  show EulerAt g (fun x y _ => state g 5 0 0 x y) x y t
  simpa only [zero_mul, sub_zero, ← show ∀ X Y, state g 5 0 0 X Y = st g 5 0 X Y from fun X Y => by rw [state_eq, sub_zero, sub_zero]] using this

/-- **C109** The moving vortex repeats along both axes and in time, and is carried along the diagonal. -/
theorem vortex10_periodic (g chi x y t s : ℝ) (m n : ℤ) : vortex10 g chi (x + m * 10) (y + n * 10) t = vortex10 g chi x y t ∧
    vortex10 g chi x y (t + m * 10) = vortex10 g chi x y t ∧ vortex10 g chi (x + s) (y + s) (t + s) = vortex10 g chi x y t := by
  have f := fun a => (floatMod_spec (by norm_num : (0 : ℝ) < 10) a).2.2
  refine ⟨?_, ?_, ?_⟩
  · unfold vortex10
    rw [show x + m * 10 - t = x - t + m * 10 by ring, show y + n * 10 - t = y - t + n * 10 by ring, f, f]
  · unfold vortex10
    rw [show x - (t + m * 10) = x - t + ((-m : ℤ) : ℝ) * 10 by push_cast; ring, show y - (t + m * 10) = y - t + ((-m : ℤ) : ℝ) * 10 by push_cast; ring, f, f]
  · unfold vortex10
    rw [show x + s - (t + s) = x - t by ring, show y + s - (t + s) = y - t by ring]

theorem vortex30_periodic (g x y t s : ℝ) (m n : ℤ) : vortex30 g (x + m * 30) (y + n * 30) t = vortex30 g x y t ∧
    vortex30 g x y (t + m * 30) = vortex30 g x y t ∧ vortex30 g (x + s) (y + s) (t + s) = vortex30 g x y t := by
  have f := fun a => (floatMod_spec (by norm_num : (0 : ℝ) < 30) a).2.2
  refine ⟨?_, ?_, ?_⟩
  · unfold vortex30
    rw [show x + m * 30 - t + 10 = x - t + 10 + m * 30 by ring, show y + n * 30 - t + 10 = y - t + 10 + n * 30 by ring, f, f]
  · unfold vortex30
    rw [show x - (t + m * 30) + 10 = x - t + 10 + ((-m : ℤ) : ℝ) * 30 by push_cast; ring,
      show y - (t + m * 30) + 10 = y - t + 10 + ((-m : ℤ) : ℝ) * 30 by push_cast; ring, f, f]
  · unfold vortex30
    rw [show x + s - (t + s) + 10 = x - t + 10 by ring, show y + s - (t + s) + 10 = y - t + 10 by ring]

/-- both strengths that the program uses are weak enough for air; the stronger one only just -/
theorem weak_air : Weak (7 / 5) 5 ∧ Weak (7 / 5) 10.0828 ∧ ¬Weak (7 / 5) 10.083 := by
  have e1 := Real.exp_one_lt_d9
  have e2 := Real.exp_one_gt_d9
  have p1 := Real.pi_gt_d6
  have p2 := Real.pi_lt_d6
  have hp : (3.141592 : ℝ) ^ 2 < Real.pi ^ 2 := by nlinarith
  have hp2 : Real.pi ^ 2 < (3.141593 : ℝ) ^ 2 := by nlinarith
  refine ⟨⟨by norm_num, by norm_num at *; linarith⟩, ⟨by norm_num, by norm_num at *; linarith⟩, fun h => ?_⟩
  have := h.2
  norm_num at *
  linarith

/-- **C109 fails at the ends of the period**: there the field jumps, since the vortex has not died out. -/
theorem vortex10_jump (g chi y : ℝ) (hchi : 0 < chi) (h : Weak g chi) :
    (∀ s ∈ Set.Ico (0 : ℝ) 1, vortex10 g chi s y 0 2 / vortex10 g chi s y 0 0 < 1) ∧
      ∀ s ∈ Set.Ioo (-1 : ℝ) 0, 1 < vortex10 g chi s y 0 2 / vortex10 g chi s y 0 0 := by
  have hr : ∀ q, 0 < rot chi q := fun q => by unfold rot; have := Real.pi_pos; positivity
  have hv : ∀ s, vortex10 g chi s y 0 2 / vortex10 g chi s y 0 0 =
      1 + rot chi (dsq (floatMod (s - 0) 10 - 5) (floatMod (y - 0) 10 - 5)) * (floatMod (s - 0) 10 - 5) := by
    intro s
    rw [vortex10, state_eq]
    have := (den_pos h (floatMod (s - 0) 10 - 5) (floatMod (y - 0) 10 - 5)).ne'
    show den _ _ _ * _ / den _ _ _ = _
    field_simp
  constructor
  · rintro s ⟨h0, h1⟩
    have hf : floatMod (s - 0) 10 = s := by
      have : ⌊(s - 0) / 10⌋ = 0 := by rw [Int.floor_eq_iff]; constructor <;> norm_num <;> linarith
      rw [floatMod, this]; push_cast; ring
    rw [hv, hf]
    nlinarith [hr (dsq (s - 5) (floatMod (y - 0) 10 - 5))]
  · rintro s ⟨h0, h1⟩
    have hf : floatMod (s - 0) 10 = s + 10 := by
      have : ⌊(s - 0) / 10⌋ = -1 := by rw [Int.floor_eq_iff]; constructor <;> norm_num <;> linarith
      rw [floatMod, this]; push_cast; ring
    rw [hv, hf]
    nlinarith [hr (dsq (s + 10 - 5) (floatMod (y - 0) 10 - 5))]

/-- a point in the strong vortex of the program -/
example : EulerAt (7 / 5) (vortex10 (7 / 5) 10.0828) 4 (9 / 2) 0 := by
  refine vortex10_solves weak_air.2.1 4 (9 / 2) 0 (fun m hm => ?_) (fun m hm => ?_)
  · have : (4 : ℝ) = ((m * 10 : ℤ) : ℝ) := by push_cast; linarith
    have : (4 : ℤ) = m * 10 := by exact_mod_cast this
    omega
  · have : (9 : ℝ) = ((m * 20 : ℤ) : ℝ) := by push_cast; linarith
    have : (9 : ℤ) = m * 20 := by exact_mod_cast this
    omega

end DNDSR.Vortex
