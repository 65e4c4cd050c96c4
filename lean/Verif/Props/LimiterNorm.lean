import Verif.Props.Limiters
import Mathlib.Data.List.GetD
import Mathlib.Tactic.FinCases
import Mathlib.Algebra.BigOperators.Fin

/-!
# Limiters on coefficient vectors (C61)
-/

namespace DNDSR.Lim

open DNDSR.Gas

variable {m : Nat}

theorem weights_nonneg {dim rows : Nat} {w : List ℝ} (h : weights dim rows = some w) : ∀ k : Nat, 0 ≤ w.getD k 0 := by
  intro k
  have hall : ∀ x ∈ w, 0 ≤ x := by
    unfold weights at h
    split_ifs at h <;> (obtain rfl := Option.some.inj h; norm_num)
  by_cases hk : k < w.length
  · rw [List.getD_eq_getElem _ _ hk]
    exact hall _ (List.getElem_mem hk)
  · rw [List.getD_eq_default _ _ (not_lt.mp hk)]

theorem ones_nonneg (k : Nat) : 0 ≤ (List.replicate m (1 : ℝ)).getD k 0 := by
  by_cases hk : k < (List.replicate m (1 : ℝ)).length
  · rw [List.getD_eq_getElem _ _ hk, List.getElem_replicate]; norm_num
  · rw [List.getD_eq_default _ _ (not_lt.mp hk)]

theorem wnorm_nonneg {w : List ℝ} (hw : ∀ k : Nat, 0 ≤ w.getD k 0) (t : Fin m → ℝ) : 0 ≤ wnorm w t :=
  Finset.sum_nonneg fun k _ => mul_nonneg (hw k.val) (mul_self_nonneg _)

theorem wnorm_scale (w : List ℝ) (t : Fin m → ℝ) (c : ℝ) : wnorm w (fun k => t k / c) = wnorm w t / (c * c) := by
  unfold wnorm
  rw [Finset.sum_div]
  refine Finset.sum_congr rfl fun k _ => ?_
  rw [div_mul_div_comm, mul_div_assoc (w.getD k.val 0)]

theorem foldl_max_ge (l : List ℝ) : ∀ a : ℝ, a ≤ l.foldl max a ∧ ∀ x ∈ l, x ≤ l.foldl max a := by
  induction l with
  | nil => intro a; simp
  | cons y l ih =>
    intro a
    obtain ⟨p, q⟩ := ih (max a y)
    refine ⟨(le_max_left a y).trans p, fun x hx => ?_⟩
    rcases List.mem_cons.mp hx with rfl | hx
    · exact (le_max_right a x).trans p
    · exact q x hx

theorem colMax_ge (f : Fin m → ℝ) (k : Fin m) : f k ≤ colMax f :=
  (foldl_max_ge (List.ofFn f) 0).2 _ (List.mem_ofFn.mpr ⟨k, rfl⟩)

theorem colMax_nonneg (f : Fin m → ℝ) : 0 ≤ colMax f := (foldl_max_ge (List.ofFn f) 0).1

theorem biMax_pos (u1 u2 : Fin m → ℝ) (k : Fin m) : 0 < biMax u1 u2 := by
  have := colMax_ge (fun k => max |u1 k| |u2 k| + guard) k
  have h1 : 0 ≤ max |u1 k| |u2 k| := (abs_nonneg _).trans (le_max_left _ _)
  have := guard_pos
  unfold biMax
  linarith

theorem wbapNormCore_hull (w : List ℝ) {n : ℝ} (hn : 0 ≤ n) (u1 u2 : Fin m → ℝ) : InHull [u1, u2] (wbapNormCore w n u1 u2) := by
  set a := wnorm w (fun k => u1 k / biMax u1 u2) * wnorm w (fun k => u1 k / biMax u1 u2) with ha
  set b := wnorm w (fun k => u2 k / biMax u1 u2) * wnorm w (fun k => u2 k / biMax u1 u2) with hb
  have ha0 : 0 ≤ a := mul_self_nonneg _
  have hb0 : 0 ≤ b := mul_self_nonneg _
  have hv := verySmall_pos
  have hnb : 0 ≤ n * b := mul_nonneg hn hb0
  have hD : 0 < a + n * b + verySmall := by linarith
  refine ⟨[n * b / (a + n * b + verySmall), a / (a + n * b + verySmall)], rfl, ?_, ?_, fun k => ?_⟩
  · intro y hy
    rcases List.mem_cons.mp hy with rfl | hy
    · exact div_nonneg hnb hD.le
    · rw [List.mem_singleton.mp hy]
      exact div_nonneg ha0 hD.le
  · simp only [List.sum_cons, List.sum_nil, add_zero]
    rw [← add_div, div_le_one hD]
    linarith
  · simp only [List.zipWith_cons_cons, List.zipWith_nil_left, List.sum_cons, List.sum_nil, add_zero, wbapNormCore, ← ha, ← hb]
    field_simp
    ring

/-- **C61** (two-way, norm form) Where the row count is supported the result is a combination of the two inputs with nonnegative
coefficients of sum at most 1. -/
theorem wbapNorm_hull {dim : Nat} {n : ℝ} (hn : 0 ≤ n) {u1 u2 out : Fin m → ℝ} (h : wbapNorm dim n u1 u2 = .ok out) :
    InHull [u1, u2] out := by
  unfold wbapNorm at h
  split at h
  · exact absurd h (by simp)
  · next w _ =>
    obtain rfl := Res.ok.inj h
    exact wbapNormCore_hull w hn u1 u2

/-- **C61** (two-way, orthogonal form) Same with unit weights, for any number of rows. -/
theorem wbapOrth_hull {n : ℝ} (hn : 0 ≤ n) (u1 u2 : Fin m → ℝ) : InHull [u1, u2] (wbapOrth n u1 u2) :=
  wbapNormCore_hull _ hn u1 u2

/-- **C61** (supported row counts) The norm limiters abort exactly when the number of rows is not that of the polynomials of one degree
from 1 to 3. -/
theorem norm_total (dim : Nat) (hdim : dim = 2 ∨ dim = 3) (n : ℝ) (u1 u2 : Fin m → ℝ) :
    ((∃ out, wbapNorm dim n u1 u2 = .ok out) ↔ (dim = 2 ∧ (m = 2 ∨ m = 3 ∨ m = 4)) ∨ (dim = 3 ∧ (m = 3 ∨ m = 6 ∨ m = 10))) ∧
    ((∃ out, memm dim u1 u2 = .ok out) ↔ (dim = 2 ∧ (m = 2 ∨ m = 3 ∨ m = 4)) ∨ (dim = 3 ∧ (m = 3 ∨ m = 6 ∨ m = 10))) := by
  have hw : (∃ w, weights dim m = some w) ↔ (dim = 2 ∧ (m = 2 ∨ m = 3 ∨ m = 4)) ∨ (dim = 3 ∧ (m = 3 ∨ m = 6 ∨ m = 10)) := by
    unfold weights
    rcases hdim with rfl | rfl
    · split_ifs <;> simp_all
    · norm_num
      split_ifs <;> simp_all
  constructor
  · rw [← hw]
    unfold wbapNorm
    constructor
    · rintro ⟨out, h⟩
      split at h
      · exact absurd h (by simp)
      · next w e => exact ⟨w, e⟩
    · rintro ⟨w, e⟩
      rw [e]
      exact ⟨_, rfl⟩
  · rw [← hw]
    unfold memm
    constructor
    · rintro ⟨out, h⟩
      split at h
      · exact absurd h (by simp)
      · next w e => exact ⟨w, e⟩
    · rintro ⟨w, e⟩
      rw [e]
      exact ⟨_, rfl⟩

theorem wbapNormCore_zero (w : List ℝ) (n : ℝ) (u : Fin m → ℝ) (k : Fin m) :
    wbapNormCore w n u (fun _ => 0) k = 0 ∧ wbapNormCore w n (fun _ => 0) u k = 0 := by
  have hz : wnorm w (fun _ : Fin m => 0) = 0 := by simp [wnorm]
  constructor <;> simp [wbapNormCore, hz]

/-- **C61** (zero input) A zero vector among the two inputs gives a zero result. -/
theorem wbapNorm_zero {dim : Nat} {n : ℝ} {u out : Fin m → ℝ}
    (h : wbapNorm dim n u (fun _ => 0) = .ok out ∨ wbapNorm dim n (fun _ => 0) u = .ok out) : ∀ k, out k = 0 := by
  intro k
  unfold wbapNorm at h
  rcases h with h | h <;>
  · split at h
    · exact absurd h (by simp)
    · next w _ =>
      obtain rfl := Res.ok.inj h
      first | exact (wbapNormCore_zero w n u k).1 | exact (wbapNormCore_zero w n u k).2

/-! ### minimum norm -/

theorem memmCore_select {w : List ℝ} (hw : ∀ k : Nat, 0 ≤ w.getD k 0) (u1 u2 : Fin m → ℝ) :
    (sqNorm w u1 < sqNorm w u2 → memmCore w u1 u2 = u1) ∧ (sqNorm w u2 < sqNorm w u1 → memmCore w u1 u2 = u2) ∧
    (sqNorm w u1 = sqNorm w u2 → memmCore w u1 u2 = fun k => (u1 k + u2 k) / 2) := by
  by_cases hm : Nonempty (Fin m)
  · obtain ⟨k0⟩ := hm
    have hp := biMax_pos u1 u2 k0
    set c := biMax u1 u2 with hc
    have hcc : 0 < c * c := mul_pos hp hp
    have e1 : wnorm w (fun k => u1 k / c) = sqNorm w u1 / (c * c) := wnorm_scale w u1 c
    have e2 : wnorm w (fun k => u2 k / c) = sqNorm w u2 / (c * c) := wnorm_scale w u2 c
    have n1 : 0 ≤ sqNorm w u1 / (c * c) := div_nonneg (wnorm_nonneg hw u1) hcc.le
    have n2 : 0 ≤ sqNorm w u2 / (c * c) := div_nonneg (wnorm_nonneg hw u2) hcc.le
    refine ⟨fun h => ?_, fun h => ?_, fun h => ?_⟩
    · have hlt : √(sqNorm w u1 / (c * c)) - √(sqNorm w u2 / (c * c)) < 0 :=
        sub_neg.mpr (Real.sqrt_lt_sqrt n1 ((div_lt_div_iff_of_pos_right hcc).mpr h))
      funext k
      simp only [memmCore, ← hc, e1, e2]
      rw [sgn_neg hlt]
      ring
    · have hlt : 0 < √(sqNorm w u1 / (c * c)) - √(sqNorm w u2 / (c * c)) :=
        sub_pos.mpr (Real.sqrt_lt_sqrt n2 ((div_lt_div_iff_of_pos_right hcc).mpr h))
      funext k
      simp only [memmCore, ← hc, e1, e2]
      rw [sgn_pos hlt]
      ring
    · funext k
      simp only [memmCore, ← hc, e1, e2, h, sub_self, sgn_zero]
      ring
  · have : ∀ f g : Fin m → ℝ, f = g := fun f g => funext fun k => absurd ⟨k⟩ hm
    exact ⟨fun _ => this _ _, fun _ => this _ _, fun _ => this _ _⟩

theorem sqNorm_mix {w : List ℝ} (hw : ∀ k : Nat, 0 ≤ w.getD k 0) (u v : Fin m → ℝ) :
    sqNorm w (fun k => (u k + v k) / 2) ≤ (sqNorm w u + sqNorm w v) / 2 := by
  unfold sqNorm
  rw [← Finset.sum_add_distrib, Finset.sum_div]
  refine Finset.sum_le_sum fun k _ => ?_
  have h := mul_nonneg (hw k.val) (mul_self_nonneg (u k - v k))
  nlinarith [h]

/-- **C61** (two-way minimum norm) The input of smaller weighted norm is returned, their mean when the norms are equal, so the result
has weighted norm at most that of each input. -/
theorem memm_spec {dim : Nat} {u1 u2 out : Fin m → ℝ} (h : memm dim u1 u2 = .ok out) :
    ∃ w, weights dim m = some w ∧ (sqNorm w u1 < sqNorm w u2 → out = u1) ∧ (sqNorm w u2 < sqNorm w u1 → out = u2) ∧
      (sqNorm w u1 = sqNorm w u2 → out = fun k => (u1 k + u2 k) / 2) ∧ sqNorm w out ≤ sqNorm w u1 ∧ sqNorm w out ≤ sqNorm w u2 := by
  unfold memm at h
  split at h
  · exact absurd h (by simp)
  · next w hw =>
    obtain rfl := Res.ok.inj h
    obtain ⟨a, b, c⟩ := memmCore_select (weights_nonneg hw) u1 u2
    refine ⟨w, hw, a, b, c, ?_⟩
    rcases lt_trichotomy (sqNorm w u1) (sqNorm w u2) with hl | hl | hl
    · rw [a hl]; exact ⟨le_rfl, hl.le⟩
    · rw [c hl]
      have := sqNorm_mix (weights_nonneg hw) u1 u2
      constructor <;> linarith
    · rw [b hl]; exact ⟨hl.le, le_rfl⟩

/-! ### more than two candidates -/

theorem multiNormLoop_scale {w : List ℝ} (hw : ∀ k : Nat, 0 ≤ w.getD k 0) {M : ℝ} (hM : 0 < M) (us : List (Fin m → ℝ)) :
    ∀ (exn : ℝ) (_ : 0 ≤ exn) (s : (Fin m → ℝ) × ℝ), ∃ c : List ℝ, c.length = us.length ∧ (∀ y ∈ c, 0 ≤ y) ∧
      (multiNormLoop w M exn us s).2 = s.2 + c.sum ∧
      ∀ k, M * (multiNormLoop w M exn us s).1 k = M * s.1 k + (List.zipWith (fun y u => y * u k) c us).sum := by
  induction us with
  | nil => intro exn _ s; exact ⟨[], rfl, by simp, by simp [multiNormLoop], fun k => by simp [multiNormLoop]⟩
  | cons u us ih =>
    intro exn he s
    set tn := ((wnorm w (fun k => u k / M) + guard) * (wnorm w (fun k => u k / M) + guard))⁻¹ with htn
    have htn0 : 0 ≤ tn := inv_nonneg.mpr (mul_self_nonneg _)
    obtain ⟨c, h1, h2, h3, h4⟩ := ih 1 zero_le_one (fun k => s.1 k + u k / M * tn * exn, s.2 + tn * exn)
    refine ⟨tn * exn :: c, by simp [h1], ?_, ?_, fun k => ?_⟩
    · intro y hy
      rcases List.mem_cons.mp hy with rfl | hy
      · exact mul_nonneg htn0 he
      · exact h2 y hy
    · simp only [multiNormLoop, List.sum_cons, ← htn]
      rw [h3]
      ring
    · simp only [multiNormLoop, List.zipWith_cons_cons, List.sum_cons, ← htn]
      rw [h4]
      field_simp
      ring

theorem sum_zipWith_div (us : List (Fin m → ℝ)) (k : Fin m) (D : ℝ) : ∀ c : List ℝ,
    (List.zipWith (fun y u => y * u k) (c.map (· / D)) us).sum = (List.zipWith (fun y u => y * u k) c us).sum / D := by
  induction us with
  | nil => intro c; simp
  | cons u us ih =>
    intro c
    cases c with
    | nil => simp
    | cons y c =>
      simp only [List.map_cons, List.zipWith_cons_cons, List.sum_cons, ih, add_div]
      ring

theorem sum_map_div (D : ℝ) : ∀ c : List ℝ, (c.map (· / D)).sum = c.sum / D
  | [] => by simp
  | y :: c => by simp [sum_map_div D c, add_div]

theorem le_foldl_max (us : List (Fin m → ℝ)) (k : Fin m) : ∀ a : ℝ, a ≤ us.foldl (fun s u => max s |u k|) a := by
  induction us with
  | nil => intro a; exact le_rfl
  | cons u us ih => intro a; exact (le_max_left a _).trans (ih _)

theorem multiMax_pos (us : List (Fin m → ℝ)) (k : Fin m) : 0 < multiMax us :=
  verySmall_pos.trans_le ((le_foldl_max us k verySmall).trans (colMax_ge (fun k => us.foldl (fun s u => max s |u k|) verySmall) k))

theorem multiNormCore_hull {w : List ℝ} (hw : ∀ k : Nat, 0 ≤ w.getD k 0) {n1 : ℝ} (hn : 0 ≤ n1) (us : List (Fin m → ℝ)) :
    InHull us (multiNormCore w n1 us) := by
  by_cases hm : Nonempty (Fin m)
  · obtain ⟨k0⟩ := hm
    obtain ⟨c, h1, h2, h3, h4⟩ := multiNormLoop_scale hw (multiMax_pos us k0) us n1 hn (fun _ => 0, 0)
    have hc : 0 ≤ c.sum := List.sum_nonneg h2
    have hv := verySmall_pos
    refine ⟨c.map (· / (c.sum + verySmall)), by simp [h1], ?_, ?_, fun k => ?_⟩
    · intro y hy
      obtain ⟨x, hx, rfl⟩ := List.mem_map.mp hy
      exact div_nonneg (h2 x hx) (by linarith)
    · rw [sum_map_div, div_le_one (by linarith)]
      linarith
    · have e := h4 k
      simp only [mul_zero, zero_add] at e
      rw [sum_zipWith_div, ← e, ← mul_div_assoc']
      simp only [multiNormCore]
      rw [h3, zero_add]
  · refine ⟨List.replicate us.length 0, by simp, ?_, by simp, fun k => absurd ⟨k⟩ hm⟩
    intro y hy
    rw [List.eq_of_mem_replicate hy]

/-- **C61** (multi-way) The multi-way norm limiters return a combination of the candidates with nonnegative coefficients of sum at
most 1. -/
theorem multi2D_hull {n1 : ℝ} (hn : 0 ≤ n1) {us : List (Fin m → ℝ)} {out : Fin m → ℝ} (h : multi2D n1 us = .ok out) : InHull us out := by
  unfold multi2D at h
  split at h
  · exact absurd h (by simp)
  · next w hw =>
    obtain rfl := Res.ok.inj h
    exact multiNormCore_hull (weights_nonneg hw) hn us

theorem multiOrth_hull {n1 : ℝ} (hn : 0 ≤ n1) (us : List (Fin m → ℝ)) : InHull us (multiOrth n1 us) :=
  multiNormCore_hull ones_nonneg hn us

theorem wnorm_mix {w : List ℝ} (hw : ∀ k : Nat, 0 ≤ w.getD k 0) (t v : Fin m → ℝ) :
    let sel := sgn (wnorm w t - wnorm w v) * (1 / 2) + 1 / 2
    wnorm w (fun k => t k * (1 - sel) + v k * sel) ≤ wnorm w t ∧ wnorm w (fun k => t k * (1 - sel) + v k * sel) ≤ wnorm w v := by
  intro sel
  rcases lt_trichotomy (wnorm w t) (wnorm w v) with hl | hl | hl
  · have e : (fun k => t k * (1 - sel) + v k * sel) = t := by
      funext k
      simp only [sel, sgn_neg (sub_neg.mpr hl)]
      ring
    rw [e]
    exact ⟨le_rfl, hl.le⟩
  · have e : (fun k => t k * (1 - sel) + v k * sel) = fun k => (t k + v k) / 2 := by
      funext k
      simp only [sel, hl, sub_self, sgn_zero]
      ring
    rw [e]
    have : wnorm w (fun k => (t k + v k) / 2) ≤ (wnorm w t + wnorm w v) / 2 := sqNorm_mix hw t v
    constructor <;> linarith
  · have e : (fun k => t k * (1 - sel) + v k * sel) = v := by
      funext k
      simp only [sel, sgn_pos (sub_pos.mpr hl)]
      ring
    rw [e]
    exact ⟨hl.le, le_rfl⟩

theorem memmLoop_le {w : List ℝ} (hw : ∀ k : Nat, 0 ≤ w.getD k 0) (M : ℝ) (us : List (Fin m → ℝ)) : ∀ t : Fin m → ℝ,
    wnorm w (memmLoop w M t us) ≤ wnorm w t ∧ ∀ u ∈ us, wnorm w (memmLoop w M t us) ≤ wnorm w (fun k => u k / M) := by
  induction us with
  | nil => intro t; simp [memmLoop]
  | cons u us ih =>
    intro t
    obtain ⟨p, q⟩ := wnorm_mix hw (fun k => u k / M) t
    obtain ⟨a, b⟩ := ih (fun k => u k / M * (1 - (sgn (wnorm w (fun k => u k / M) - wnorm w t) * (1 / 2) + 1 / 2)) +
      t k * (sgn (wnorm w (fun k => u k / M) - wnorm w t) * (1 / 2) + 1 / 2))
    refine ⟨a.trans q, fun v hv => ?_⟩
    rcases List.mem_cons.mp hv with rfl | hv
    · exact a.trans p
    · exact b v hv

theorem memmMultiCore_eq {w : List ℝ} (u : Fin m → ℝ) (us : List (Fin m → ℝ)) (M : ℝ) (hMdef : M = colMax (fun k => |u k|) + verySmall)
    (tmin : Fin m → ℝ) (ht : tmin = memmLoop w M (fun k => u k / M) us) :
    memmMultiCore w u us = fun k => u k * (1 - (sgn (wnorm w (fun k => u k / M) - wnorm w tmin) * (1 / 2) + 1 / 2)) +
      (tmin k * M) * (sgn (wnorm w (fun k => u k / M) - wnorm w tmin) * (1 / 2) + 1 / 2) := by
  subst ht
  subst hMdef
  funext k
  simp only [memmMultiCore, mul_zero, zero_add, sub_self, zero_div]
  ring

/-- **C61** (multi-way minimum norm) The result has weighted norm at most that of the centre vector and of every candidate. -/
theorem memmMulti_min {u : Fin m → ℝ} {us : List (Fin m → ℝ)} {out : Fin m → ℝ} (h : memmMulti u us = .ok out) :
    ∃ w, weights 2 m = some w ∧ sqNorm w out ≤ sqNorm w u ∧ ∀ v ∈ us, sqNorm w out ≤ sqNorm w v := by
  unfold memmMulti at h
  split at h
  · exact absurd h (by simp)
  · next w hw' =>
    obtain rfl := Res.ok.inj h
    have hw := weights_nonneg hw'
    refine ⟨w, hw', ?_⟩
    set M := colMax (fun k => |u k|) + verySmall with hMdef
    have hM : 0 < M := by have := colMax_nonneg (fun k => |u k|); have := verySmall_pos; linarith
    have hMM : 0 < M * M := mul_pos hM hM
    obtain ⟨a, b⟩ := memmLoop_le hw M us (fun k => u k / M)
    set tmin := memmLoop w M (fun k => u k / M) us with ht
    rw [memmMultiCore_eq (w := w) u us M hMdef tmin ht]
    have hsame : ∀ v : Fin m → ℝ, sqNorm w v = wnorm w (fun k => v k / M) * (M * M) := fun v => by
      rw [wnorm_scale]
      show wnorm w v = _
      field_simp
    have hle : sqNorm w (fun k => u k * (1 - (sgn (wnorm w (fun k => u k / M) - wnorm w tmin) * (1 / 2) + 1 / 2)) +
      (tmin k * M) * (sgn (wnorm w (fun k => u k / M) - wnorm w tmin) * (1 / 2) + 1 / 2)) ≤ wnorm w tmin * (M * M) := by
      rw [hsame]
      refine mul_le_mul_of_nonneg_right ?_ hMM.le
      have := (wnorm_mix hw (fun k => u k / M) tmin).2
      refine le_trans (le_of_eq ?_) this
      congr 1
      funext k
      field_simp
    constructor
    · rw [hsame u]
      exact hle.trans (mul_le_mul_of_nonneg_right a hMM.le)
    · intro v hv
      rw [hsame v]
      exact hle.trans (mul_le_mul_of_nonneg_right (b v hv) hMM.le)

theorem zipWith_scale (us : List (Fin m → ℝ)) (k : Fin m) (a : ℝ) : ∀ c : List ℝ,
    (List.zipWith (fun y u => y * u k) (c.map (· * a)) us).sum = (List.zipWith (fun y u => y * u k) c us).sum * a := by
  induction us with
  | nil => intro c; simp
  | cons u us ih =>
    intro c
    cases c with
    | nil => simp
    | cons y c =>
      simp only [List.map_cons, List.zipWith_cons_cons, List.sum_cons, ih]
      ring

theorem sum_map_scale (a : ℝ) : ∀ c : List ℝ, (c.map (· * a)).sum = c.sum * a
  | [] => by simp
  | y :: c => by simp [sum_map_scale a c, add_mul]

theorem sel_range (x : ℝ) : 0 ≤ sgn x * (1 / 2) + 1 / 2 ∧ 0 ≤ 1 - (sgn x * (1 / 2) + 1 / 2) := by
  rcases lt_trichotomy x 0 with h | h | h
  · rw [sgn_neg h]; norm_num
  · rw [h, sgn_zero]; norm_num
  · rw [sgn_pos h]; norm_num

/-- the running minimum is a convex combination of the start and the candidates seen -/
theorem memmLoop_conv (w : List ℝ) {M : ℝ} (hM : 0 < M) (us : List (Fin m → ℝ)) : ∀ t : Fin m → ℝ,
    ∃ (a : ℝ) (c : List ℝ), 0 ≤ a ∧ c.length = us.length ∧ (∀ y ∈ c, 0 ≤ y) ∧ a + c.sum = 1 ∧
      ∀ k, memmLoop w M t us k * M = a * (t k * M) + (List.zipWith (fun y u => y * u k) c us).sum := by
  induction us with
  | nil => intro t; exact ⟨1, [], zero_le_one, rfl, by simp, by simp, fun k => by simp [memmLoop]⟩
  | cons u us ih =>
    intro t
    obtain ⟨s0, s1⟩ := sel_range (wnorm w (fun k => u k / M) - wnorm w t)
    set sel := sgn (wnorm w (fun k => u k / M) - wnorm w t) * (1 / 2) + 1 / 2 with hsel
    obtain ⟨a, c, h0, h1, h2, h3, h4⟩ := ih (fun k => u k / M * (1 - sel) + t k * sel)
    refine ⟨a * sel, a * (1 - sel) :: c, mul_nonneg h0 s0, by simp [h1], ?_, ?_, fun k => ?_⟩
    · intro y hy
      rcases List.mem_cons.mp hy with rfl | hy
      · exact mul_nonneg h0 s1
      · exact h2 y hy
    · rw [List.sum_cons]
      linear_combination h3
    · have e : memmLoop w M t (u :: us) = memmLoop w M (fun k => u k / M * (1 - sel) + t k * sel) us := rfl
      rw [e, h4, List.zipWith_cons_cons, List.sum_cons]
      field_simp
      ring

/-- **C61** (multi-way minimum norm) The result is a convex combination of the centre vector and the candidates. -/
theorem memmMulti_conv {u : Fin m → ℝ} {us : List (Fin m → ℝ)} {out : Fin m → ℝ} (h : memmMulti u us = .ok out) :
    InConv (u :: us) out := by
  unfold memmMulti at h
  split at h
  · exact absurd h (by simp)
  · next w hw' =>
    obtain rfl := Res.ok.inj h
    set M := colMax (fun k => |u k|) + verySmall with hMdef
    have hM : 0 < M := by have := colMax_nonneg (fun k => |u k|); have := verySmall_pos; linarith
    obtain ⟨a, c, h0, h1, h2, h3, h4⟩ := memmLoop_conv w hM us (fun k => u k / M)
    set tmin := memmLoop w M (fun k => u k / M) us with ht
    obtain ⟨s0, s1⟩ := sel_range (wnorm w (fun k => u k / M) - wnorm w tmin)
    rw [memmMultiCore_eq (w := w) u us M hMdef tmin ht]
    set sel := sgn (wnorm w (fun k => u k / M) - wnorm w tmin) * (1 / 2) + 1 / 2 with hsel
    refine ⟨((1 - sel) + a * sel) :: c.map (· * sel), by simp [h1], ?_, ?_, fun k => ?_⟩
    · intro y hy
      rcases List.mem_cons.mp hy with rfl | hy
      · exact add_nonneg s1 (mul_nonneg h0 s0)
      · obtain ⟨x, hx, rfl⟩ := List.mem_map.mp hy
        exact mul_nonneg (h2 x hx) s0
    · rw [List.sum_cons, sum_map_scale]
      linear_combination sel * h3
    · rw [List.zipWith_cons_cons, List.sum_cons, zipWith_scale]
      simp only
      rw [h4]
      field_simp
      ring

/-! ### agreeing inputs -/

theorem foldl_max_mem (l : List ℝ) : ∀ a : ℝ, l.foldl max a = a ∨ l.foldl max a ∈ l := by
  induction l with
  | nil => intro a; exact Or.inl rfl
  | cons y l ih =>
    intro a
    rcases ih (max a y) with h | h
    · rcases max_choice a y with e | e
      · exact Or.inl (by rw [List.foldl_cons, h, e])
      · exact Or.inr (by rw [List.foldl_cons, h, e]; exact List.mem_cons_self)
    · exact Or.inr (by rw [List.foldl_cons]; exact List.mem_cons_of_mem _ h)

theorem colMax_attained {f : Fin m → ℝ} (k0 : Fin m) (h : 0 < f k0) : ∃ k, colMax f = f k := by
  rcases foldl_max_mem (List.ofFn f) 0 with e | e
  · exact absurd (e ▸ colMax_ge f k0 : f k0 ≤ 0) (not_le.mpr h)
  · obtain ⟨k, hk⟩ := List.mem_ofFn.mp e
    exact ⟨k, hk.symm⟩

theorem weights_range {dim rows : Nat} {w : List ℝ} (h : weights dim rows = some w) (k : Fin rows) :
    1 / 6 ≤ w.getD k.val 0 ∧ w.getD k.val 0 ≤ 1 := by
  obtain ⟨k, hk⟩ := k
  have hall : (∀ x ∈ w, 1 / 6 ≤ x ∧ x ≤ 1) ∧ w.length = rows := by
    unfold weights at h
    split_ifs at h <;> (obtain rfl := Option.some.inj h; norm_num; omega)
  have hk' : k < w.length := by omega
  simp only
  rw [List.getD_eq_getElem _ _ hk']
  exact hall.1 _ (List.getElem_mem hk')

theorem biMax_self_lower {w : List ℝ} (hw : ∀ k : Fin m, 1 / 6 ≤ w.getD k.val 0) {u : Fin m → ℝ} {k0 : Fin m} (h0 : guard ≤ |u k0|) :
    1 / 24 ≤ wnorm w (fun k => u k / biMax u u) := by
  have hg := guard_pos
  obtain ⟨k, hk⟩ := colMax_attained (f := fun k => max |u k| |u k| + guard) k0 (by
    have : 0 ≤ max |u k0| |u k0| := (abs_nonneg _).trans (le_max_left _ _)
    linarith)
  have hge := colMax_ge (fun k => max |u k| |u k| + guard) k0
  have hb : biMax u u = |u k| + guard := by rw [biMax, hk, max_self]
  have hk0 : guard ≤ |u k| := by
    have : max |u k0| |u k0| + guard ≤ |u k| + guard := hb ▸ hge
    rw [max_self] at this
    linarith
  have hpos : 0 < biMax u u := by rw [hb]; linarith
  have hth : 1 / 2 ≤ |u k / biMax u u| := by
    rw [abs_div, abs_of_pos hpos, le_div_iff₀ hpos, hb]
    linarith
  have hsq : 1 / 4 ≤ u k / biMax u u * (u k / biMax u u) := by
    rw [← abs_mul_abs_self]
    nlinarith
  have hterm : 1 / 24 ≤ w.getD k.val 0 * (u k / biMax u u * (u k / biMax u u)) := by
    have := hw k
    nlinarith
  refine hterm.trans (Finset.single_le_sum (f := fun k : Fin m => w.getD k.val 0 * (u k / biMax u u * (u k / biMax u u))) ?_
    (Finset.mem_univ k))
  intro i _
  exact mul_nonneg (by have := hw i; linarith) (mul_self_nonneg _)

theorem wbapNormCore_agree {w : List ℝ} (hw : ∀ k : Fin m, 1 / 6 ≤ w.getD k.val 0) {n : ℝ} (hn : 0 ≤ n) {u : Fin m → ℝ} {k0 : Fin m}
    (h0 : 1 / 10 ^ 50 ≤ |u k0|) (k : Fin m) : |wbapNormCore w n u u k - u k| ≤ 576 / 10 ^ 200 * |u k| := by
  have hl := biMax_self_lower hw h0
  set N := wnorm w (fun k => u k / biMax u u) with hN
  have hv := verySmall_pos
  have hNN : 1 / 576 ≤ N * N := by nlinarith
  have hnN : 0 ≤ n * (N * N) := mul_nonneg hn (mul_self_nonneg _)
  have hD : 0 < N * N + n * (N * N) + verySmall := by linarith
  have e : wbapNormCore w n u u k - u k = -(verySmall / (N * N + n * (N * N) + verySmall)) * u k := by
    simp only [wbapNormCore, ← hN]
    field_simp
    ring
  rw [e, abs_mul, abs_neg, abs_of_pos (div_pos hv hD)]
  refine mul_le_mul_of_nonneg_right ?_ (abs_nonneg _)
  rw [div_le_iff₀ hD]
  have : verySmall = 1 / 10 ^ 200 := rfl
  rw [this] at hD hv ⊢
  nlinarith

/-- **C61** (agreement, two-way) Equal inputs, not all below 1e-50 in size, are reproduced with relative error at most 1e-197. -/
theorem wbapNorm_agree {dim : Nat} {n : ℝ} (hn : 0 ≤ n) {u out : Fin m → ℝ} (h : wbapNorm dim n u u = .ok out) {k0 : Fin m}
    (h0 : 1 / 10 ^ 50 ≤ |u k0|) (k : Fin m) : |out k - u k| ≤ 576 / 10 ^ 200 * |u k| := by
  unfold wbapNorm at h
  split at h
  · exact absurd h (by simp)
  · next w hw =>
    obtain rfl := Res.ok.inj h
    exact wbapNormCore_agree (fun k => (weights_range hw k).1) hn h0 k

theorem wbapOrth_agree {n : ℝ} (hn : 0 ≤ n) {u : Fin m → ℝ} {k0 : Fin m} (h0 : 1 / 10 ^ 50 ≤ |u k0|) (k : Fin m) :
    |wbapOrth n u u k - u k| ≤ 576 / 10 ^ 200 * |u k| := by
  refine wbapNormCore_agree (fun k => ?_) hn h0 k
  rw [List.getD_eq_getElem _ _ (by simp), List.getElem_replicate]
  norm_num

theorem foldl_absmax_ge (us : List (Fin m → ℝ)) (k : Fin m) : ∀ a : ℝ, ∀ u ∈ us, |u k| ≤ us.foldl (fun s u => max s |u k|) a := by
  induction us with
  | nil => intro a u hu; simp at hu
  | cons v us ih =>
    intro a u hu
    rcases List.mem_cons.mp hu with rfl | hu
    · exact (le_max_right a _).trans (le_foldl_max us k _)
    · exact ih _ u hu

/-- what the loop adds for `N` copies of one candidate -/
theorem multiNormLoop_same (w : List ℝ) (M : ℝ) (u : Fin m → ℝ) (N : Nat) : ∀ (exn : ℝ) (s : (Fin m → ℝ) × ℝ),
    ∃ r : ℝ, 0 ≤ r ∧ (multiNormLoop w M exn (List.replicate (N + 1) u) s).2 =
        s.2 + ((wnorm w (fun k => u k / M) + guard) * (wnorm w (fun k => u k / M) + guard))⁻¹ * exn + r ∧
      ∀ k, (multiNormLoop w M exn (List.replicate (N + 1) u) s).1 k =
        s.1 k + u k / M * (((wnorm w (fun k => u k / M) + guard) * (wnorm w (fun k => u k / M) + guard))⁻¹ * exn + r) := by
  set tn := ((wnorm w (fun k => u k / M) + guard) * (wnorm w (fun k => u k / M) + guard))⁻¹ with htn
  have htn0 : 0 ≤ tn := inv_nonneg.mpr (mul_self_nonneg _)
  induction N with
  | zero => intro exn s; exact ⟨0, le_rfl, by simp [multiNormLoop, ← htn], fun k => by simp [multiNormLoop, ← htn]; ring⟩
  | succ N ih =>
    intro exn s
    obtain ⟨r, h0, h1, h2⟩ := ih 1 (fun k => s.1 k + u k / M * tn * exn, s.2 + tn * exn)
    refine ⟨tn * 1 + r, by linarith, ?_, fun k => ?_⟩
    · rw [List.replicate_succ, multiNormLoop]
      simp only [← htn]
      rw [h1]
      ring
    · rw [List.replicate_succ, multiNormLoop]
      simp only [← htn]
      rw [h2]
      ring

theorem multiNormCore_agree {w : List ℝ} (hw : ∀ k : Fin m, 0 ≤ w.getD k.val 0 ∧ w.getD k.val 0 ≤ 1) {n1 : ℝ} (hn : 0 < n1)
    (u : Fin m → ℝ) (N : Nat) (k : Fin m) :
    |multiNormCore w n1 (List.replicate (N + 1) u) k - u k| ≤ ((m + 1) ^ 2 / n1) / 10 ^ 200 * |u k| := by
  have hM := multiMax_pos (List.replicate (N + 1) u) k
  set M := multiMax (List.replicate (N + 1) u) with hMd
  have hth : ∀ i, |u i / M| ≤ 1 := fun i => by
    rw [abs_div, abs_of_pos hM, div_le_one hM]
    exact (foldl_absmax_ge (List.replicate (N + 1) u) i verySmall u (by simp)).trans
      (colMax_ge (fun k => (List.replicate (N + 1) u).foldl (fun s u => max s |u k|) verySmall) i)
  have hN0 : 0 ≤ wnorm w (fun k => u k / M) := Finset.sum_nonneg fun k _ => mul_nonneg (hw k).1 (mul_self_nonneg _)
  have hNm : wnorm w (fun k => u k / M) ≤ m := by
    have : ∑ k : Fin m, w.getD k.val 0 * (u k / M * (u k / M)) ≤ ∑ _k : Fin m, (1 : ℝ) := by
      refine Finset.sum_le_sum fun i _ => ?_
      have h1 : u i / M * (u i / M) ≤ 1 := by
        rw [← abs_mul_abs_self]
        have := hth i
        have := abs_nonneg (u i / M)
        nlinarith
      have h2 := mul_self_nonneg (u i / M)
      obtain ⟨h3, h4⟩ := hw i
      nlinarith
    rw [Finset.sum_const, Finset.card_univ, Fintype.card_fin, nsmul_eq_mul, mul_one] at this
    exact this
  have hg := guard_pos
  have hg1 : guard ≤ 1 := by unfold guard; norm_num
  obtain ⟨r, h0, h1, h2⟩ := multiNormLoop_same w M u N n1 (fun _ => 0, 0)
  set A := wnorm w (fun k => u k / M) + guard with hA
  have hA0 : 0 < A := by linarith
  have hAm : A ≤ m + 1 := by linarith
  have hv := verySmall_pos
  have htn : 1 / (m + 1) ^ 2 ≤ (A * A)⁻¹ := by
    rw [← one_div]
    refine one_div_le_one_div_of_le (mul_pos hA0 hA0) ?_
    nlinarith
  set S := (A * A)⁻¹ * n1 + r with hS
  have hSl : n1 / (m + 1) ^ 2 ≤ S := by
    have := mul_le_mul_of_nonneg_right htn hn.le
    rw [hS]
    have e : n1 / (m + 1) ^ 2 = 1 / ((m : ℝ) + 1) ^ 2 * n1 := by ring
    linarith
  have hm1 : (0 : ℝ) < (m + 1) ^ 2 := by positivity
  have hSp : 0 < S := lt_of_lt_of_le (div_pos hn hm1) hSl
  have hD : 0 < S + verySmall := by linarith
  have e : multiNormCore w n1 (List.replicate (N + 1) u) k - u k = -(verySmall / (S + verySmall)) * u k := by
    simp only [multiNormCore, ← hMd]
    rw [h1, h2]
    simp only [zero_add]
    rw [← hS]
    field_simp
    ring
  rw [e, abs_mul, abs_neg, abs_of_pos (div_pos hv hD)]
  refine mul_le_mul_of_nonneg_right ?_ (abs_nonneg _)
  rw [div_le_iff₀ hD]
  have hv' : verySmall = 1 / 10 ^ 200 := rfl
  have h1' : 1 ≤ (m + 1) ^ 2 / n1 * S := by
    have := mul_le_mul_of_nonneg_left hSl (div_pos hm1 hn).le
    have e : ((m : ℝ) + 1) ^ 2 / n1 * (n1 / (m + 1) ^ 2) = 1 := by field_simp
    linarith
  have h2' : 0 ≤ (m + 1) ^ 2 / n1 * verySmall := (mul_pos (div_pos hm1 hn) hv).le
  have e2 : ((m : ℝ) + 1) ^ 2 / n1 / 10 ^ 200 * (S + verySmall) = ((m + 1) ^ 2 / n1 * S + (m + 1) ^ 2 / n1 * verySmall) * verySmall := by
    rw [hv']
    ring
  rw [e2]
  nlinarith

/-- **C61** (agreement, multi-way) When all candidates are the same vector it is reproduced with relative error at most
`(m + 1)² / n1 · 1e-200`, `m` the number of rows. -/
theorem multi2D_agree {n1 : ℝ} (hn : 0 < n1) {u out : Fin m → ℝ} {N : Nat} (h : multi2D n1 (List.replicate (N + 1) u) = .ok out)
    (k : Fin m) : |out k - u k| ≤ ((m + 1) ^ 2 / n1) / 10 ^ 200 * |u k| := by
  unfold multi2D at h
  split at h
  · exact absurd h (by simp)
  · next w hw =>
    obtain rfl := Res.ok.inj h
    exact multiNormCore_agree (fun k => ⟨weights_nonneg hw k.val, (weights_range hw k).2⟩) hn u N k

theorem multiOrth_agree {n1 : ℝ} (hn : 0 < n1) (u : Fin m → ℝ) (N : Nat) (k : Fin m) :
    |multiOrth n1 (List.replicate (N + 1) u) k - u k| ≤ ((m + 1) ^ 2 / n1) / 10 ^ 200 * |u k| := by
  refine multiNormCore_agree (fun k => ⟨ones_nonneg k.val, ?_⟩) hn u N k
  rw [List.getD_eq_getElem _ _ (by simp), List.getElem_replicate]

/-- non-vacuity: three supported row counts, and the smaller of two vectors is selected. -/
example : (∃ out, wbapNorm 2 1 ![1, 2] ![3, 4] = .ok out) ∧ (∃ out, multi2D 1 [![1, 2, 3], ![1, 2, 3]] = .ok out) ∧
    memm 2 ![1, 2] ![3, 4] = .ok ![1, 2] := by
  refine ⟨⟨_, rfl⟩, ⟨_, rfl⟩, ?_⟩
  have h : memm 2 ![(1 : ℝ), 2] ![3, 4] = .ok (memmCore [1, 1] ![1, 2] ![3, 4]) := rfl
  rw [h, (memmCore_select (w := [1, 1]) (weights_nonneg (dim := 2) (rows := 2) rfl) ![1, 2] ![3, 4]).1]
  simp [sqNorm, Fin.sum_univ_two]
  norm_num

end DNDSR.Lim
