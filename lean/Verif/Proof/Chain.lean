import Verif.Proof.Jet

/-!
# The chain rule up to the third order
-/

namespace DNDSR.Jet

variable {d e : Nat}

theorem Smooth.comp {u : (Fin e → ℝ) → ℝ} {ξ : (Fin d → ℝ) → (Fin e → ℝ)} (hu : Smooth u) (hξ : ∀ m, Smooth (fun x => ξ x m)) :
    Smooth (fun x => u (ξ x)) :=
  ContDiff.comp (g := u) (f := ξ) hu (contDiff_pi.mpr hξ)

theorem Smooth.mul {f g : (Fin d → ℝ) → ℝ} (hf : Smooth f) (hg : Smooth g) : Smooth (fun x => f x * g x) := ContDiff.mul hf hg

theorem Smooth.sum {n : Nat} {f : Fin n → (Fin d → ℝ) → ℝ} (hf : ∀ m, Smooth (f m)) : Smooth (fun x => ∑ m, f m x) :=
  ContDiff.sum fun m _ => hf m

theorem chain1 {u : (Fin e → ℝ) → ℝ} {ξ : (Fin d → ℝ) → (Fin e → ℝ)} (hu : Smooth u) (hξ : ∀ m, Smooth (fun x => ξ x m)) (i : Fin d) :
    pd i (fun x => u (ξ x)) = fun x => ∑ m, pd i (fun x => ξ x m) x * pd m u (ξ x) :=
  pd_comp hu.differentiable (fun m => (hξ m).differentiable) i

theorem chain2 {u : (Fin e → ℝ) → ℝ} {ξ : (Fin d → ℝ) → (Fin e → ℝ)} (hu : Smooth u) (hξ : ∀ m, Smooth (fun x => ξ x m)) (i j : Fin d) :
    pd j (pd i (fun x => u (ξ x))) = fun x => ∑ m, (pd j (pd i (fun x => ξ x m)) x * pd m u (ξ x) +
      ∑ n, pd i (fun x => ξ x m) x * pd j (fun x => ξ x n) x * pd n (pd m u) (ξ x)) := by
  rw [chain1 hu hξ, pd_sum fun m => (((hξ m).pd i).mul ((hu.pd m).comp hξ)).differentiable]
  funext x
  refine Finset.sum_congr rfl fun m _ => ?_
  rw [pd_mul ((hξ m).pd i).differentiable ((hu.pd m).comp hξ).differentiable, chain1 (hu.pd m) hξ]
  simp only
  rw [Finset.mul_sum]
  congr 1
  exact Finset.sum_congr rfl fun n _ => by ring

theorem chain3 {u : (Fin e → ℝ) → ℝ} {ξ : (Fin d → ℝ) → (Fin e → ℝ)} (hu : Smooth u) (hξ : ∀ m, Smooth (fun x => ξ x m)) (i j k : Fin d) :
    pd k (pd j (pd i (fun x => u (ξ x)))) = fun x => ∑ m, (pd k (pd j (pd i (fun x => ξ x m))) x * pd m u (ξ x) +
      ∑ n, (pd j (pd i (fun x => ξ x m)) x * pd k (fun x => ξ x n) x * pd n (pd m u) (ξ x) +
        (pd k (pd i (fun x => ξ x m)) x * pd j (fun x => ξ x n) x + pd i (fun x => ξ x m) x * pd k (pd j (fun x => ξ x n)) x) *
          pd n (pd m u) (ξ x) +
        ∑ p, pd i (fun x => ξ x m) x * pd j (fun x => ξ x n) x * pd k (fun x => ξ x p) x * pd p (pd n (pd m u)) (ξ x))) := by
  have s1 : ∀ m n, Smooth (fun x => pd i (fun x => ξ x m) x * pd j (fun x => ξ x n) x) := fun m n => ((hξ m).pd i).mul ((hξ n).pd j)
  have s2 : ∀ m n, Smooth (fun x => pd i (fun x => ξ x m) x * pd j (fun x => ξ x n) x * pd n (pd m u) (ξ x)) :=
    fun m n => (s1 m n).mul (((hu.pd m).pd n).comp hξ)
  have s3 : ∀ m, Smooth (fun x => ∑ n, pd i (fun x => ξ x m) x * pd j (fun x => ξ x n) x * pd n (pd m u) (ξ x)) :=
    fun m => Smooth.sum (s2 m)
  have s4 : ∀ m, Smooth (fun x => pd j (pd i (fun x => ξ x m)) x * pd m u (ξ x)) := fun m => (((hξ m).pd i).pd j).mul ((hu.pd m).comp hξ)
  rw [chain2 hu hξ, pd_sum (f := fun m x => pd j (pd i (fun x => ξ x m)) x * pd m u (ξ x) +
      ∑ n, pd i (fun x => ξ x m) x * pd j (fun x => ξ x n) x * pd n (pd m u) (ξ x)) fun m => (s4 m).differentiable.add (s3 m).differentiable]
  funext x
  refine Finset.sum_congr rfl fun m _ => ?_
  rw [pd_add (s4 m).differentiable (s3 m).differentiable]
  simp only
  rw [pd_mul (((hξ m).pd i).pd j).differentiable ((hu.pd m).comp hξ).differentiable, chain1 (hu.pd m) hξ,
    pd_sum (f := fun n x => pd i (fun x => ξ x m) x * pd j (fun x => ξ x n) x * pd n (pd m u) (ξ x)) fun n => (s2 m n).differentiable]
  simp only
  rw [add_assoc, Finset.mul_sum, ← Finset.sum_add_distrib]
  congr 1
  refine Finset.sum_congr rfl fun n _ => ?_
  rw [pd_mul (s1 m n).differentiable (((hu.pd m).pd n).comp hξ).differentiable, chain1 ((hu.pd m).pd n) hξ,
    pd_mul ((hξ m).pd i).differentiable ((hξ n).pd j).differentiable]
  simp only
  rw [Finset.mul_sum]
  have : ∀ p, pd i (fun x => ξ x m) x * pd j (fun x => ξ x n) x * (pd k (fun x => ξ x p) x * pd p (pd n (pd m u)) (ξ x)) =
      pd i (fun x => ξ x m) x * pd j (fun x => ξ x n) x * pd k (fun x => ξ x p) x * pd p (pd n (pd m u)) (ξ x) := fun p => by ring
  rw [Finset.sum_congr rfl fun p _ => this p]
  ring

theorem affine_smooth (D : Matrix (Fin d) (Fin e) ℝ) (b : Fin e → ℝ) (m : Fin e) : Smooth (fun x => affine D b x m) :=
  (ContDiff.sum fun i _ => contDiff_const.mul (contDiff_apply ℝ ℝ i)).add contDiff_const

theorem pd_affine (D : Matrix (Fin d) (Fin e) ℝ) (b : Fin e → ℝ) (m : Fin e) (i : Fin d) : pd i (fun x => affine D b x m) = fun _ => D i m := by
  funext x
  unfold pd affine
  have h : ∀ t, (∑ a, D a m * Function.update x i t a) + b m = D i m * t + ((∑ a ∈ Finset.univ.erase i, D a m * x a) + b m) := fun t => by
    rw [← Finset.add_sum_erase Finset.univ _ (Finset.mem_univ i), Function.update_self, add_assoc]
    congr 2
    exact Finset.sum_congr rfl fun a ha => by rw [Function.update_of_ne (Finset.ne_of_mem_erase ha)]
  simp only [h]
  have := ((hasDerivAt_id (x i)).const_mul (D i m)).add_const ((∑ a ∈ Finset.univ.erase i, D a m * x a) + b m)
  simpa using this.deriv

theorem affine1 {u : (Fin e → ℝ) → ℝ} (hu : Smooth u) (D : Matrix (Fin d) (Fin e) ℝ) (b : Fin e → ℝ) (i : Fin d) :
    pd i (fun x => u (affine D b x)) = fun x => ∑ m, D i m * pd m u (affine D b x) := by
  rw [chain1 hu (affine_smooth D b)]
  simp only [pd_affine]

theorem affine2 {u : (Fin e → ℝ) → ℝ} (hu : Smooth u) (D : Matrix (Fin d) (Fin e) ℝ) (b : Fin e → ℝ) (i j : Fin d) :
    pd j (pd i (fun x => u (affine D b x))) = fun x => ∑ m, ∑ n, D i m * D j n * pd n (pd m u) (affine D b x) := by
  have h : ∀ (m : Fin e), Differentiable ℝ (fun x : Fin d → ℝ => D i m * pd m u (affine D b x)) :=
    fun m => (differentiable_const _).mul ((hu.pd m).comp (affine_smooth D b)).differentiable
  rw [affine1 hu, pd_sum h]
  funext x
  refine Finset.sum_congr rfl fun m _ => ?_
  rw [pd_const_mul, affine1 (hu.pd m)]
  simp only
  rw [Finset.mul_sum]
  exact Finset.sum_congr rfl fun n _ => by ring

theorem affine3 {u : (Fin e → ℝ) → ℝ} (hu : Smooth u) (D : Matrix (Fin d) (Fin e) ℝ) (b : Fin e → ℝ) (i j k : Fin d) :
    pd k (pd j (pd i (fun x => u (affine D b x)))) =
      fun x => ∑ m, ∑ n, ∑ p, D i m * D j n * D k p * pd p (pd n (pd m u)) (affine D b x) := by
  have h : ∀ (m n : Fin e), Differentiable ℝ (fun x : Fin d → ℝ => D i m * D j n * pd n (pd m u) (affine D b x)) :=
    fun m n => (differentiable_const _).mul (((hu.pd m).pd n).comp (affine_smooth D b)).differentiable
  rw [affine2 hu, pd_sum fun m => (Differentiable.fun_sum fun n _ => h m n)]
  funext x
  refine Finset.sum_congr rfl fun m _ => ?_
  rw [pd_sum fun n => h m n]
  refine Finset.sum_congr rfl fun n _ => ?_
  rw [pd_const_mul, affine1 ((hu.pd m).pd n)]
  simp only
  rw [Finset.mul_sum]
  exact Finset.sum_congr rfl fun p _ => by ring

end DNDSR.Jet

namespace DNDSR.Jet

open Filter Topology

variable {d : Nat}

theorem update_tendsto (x : Fin d → ℝ) (i : Fin d) : Tendsto (fun t => Function.update x i t) (𝓝 (x i)) (𝓝 x) := by
  have h : Continuous (fun t => Function.update x i t) := continuous_const.update i continuous_id
  have := h.tendsto (x i)
  rwa [Function.update_eq_self] at this

theorem pd_congr {f g : (Fin d → ℝ) → ℝ} {x : Fin d → ℝ} (h : f =ᶠ[𝓝 x] g) (i : Fin d) : pd i f x = pd i g x :=
  Filter.EventuallyEq.deriv_eq ((update_tendsto x i).eventually h)

theorem pd_eventually {f g : (Fin d → ℝ) → ℝ} {x : Fin d → ℝ} (h : f =ᶠ[𝓝 x] g) (i : Fin d) : pd i f =ᶠ[𝓝 x] pd i g :=
  (eventually_eventually_nhds.mpr h).mono fun _ hy => pd_congr hy i

theorem pd_const (i : Fin d) (a : ℝ) : pd i (fun _ => a) = fun _ => 0 := by
  funext x
  exact deriv_const _ _

theorem pd_coord (i c : Fin d) : pd i (fun x => x c) = fun _ => if i = c then 1 else 0 := by
  funext x
  unfold pd
  by_cases h : i = c
  · subst h; simp
  · have : ∀ t, Function.update x i t c = x c := fun t => Function.update_of_ne (Ne.symm h) _ _
    simp [this, h]

theorem pd_sub_const (i : Fin d) (f : (Fin d → ℝ) → ℝ) (a : ℝ) : pd i (fun x => f x - a) = pd i f := by
  funext x
  exact deriv_sub_const (f := fun t => f (Function.update x i t)) a

theorem smooth_const (a : ℝ) : Smooth (fun _ : Fin d → ℝ => a) := contDiff_const

theorem smooth_monomial (l : Fin d → ℝ) (L : List (Fin d)) : Smooth (monomial l L) := by
  induction L with
  | nil => exact smooth_const 1
  | cons i L ih =>
    have : monomial l (i :: L) = fun x => x i / l i * monomial l L x := by funext x; simp [monomial]
    rw [this]
    exact Smooth.mul (ContDiff.div_const (contDiff_apply ℝ ℝ i) (l i)) ih

theorem pdL_sum {n : Nat} {f : Fin n → (Fin d → ℝ) → ℝ} (a : Fin n → ℝ) (hf : ∀ m, Smooth (f m)) (L : List (Fin d)) :
    pdL L (fun x => ∑ m, a m * f m x) = fun x => ∑ m, a m * pdL L (f m) x := by
  induction L with
  | nil => rfl
  | cons i L ih =>
    rw [pdL, ih, pd_sum (f := fun m x => a m * pdL L (f m) x) fun m => (differentiable_const (a m)).mul ((hf m).pdL L).differentiable]
    funext x
    refine Finset.sum_congr rfl fun m _ => ?_
    rw [pd_const_mul]
    rfl

end DNDSR.Jet
