import Verif.Spec.Linear
import Mathlib.LinearAlgebra.Span.Basic
import Mathlib.Algebra.Module.BigOperators
import Mathlib.Algebra.Order.BigOperators.Group.Finset
import Mathlib.Algebra.BigOperators.Intervals
import Mathlib.Algebra.BigOperators.Ring.Finset
import Mathlib.Tactic.Abel
import Mathlib.Tactic.Module
import Mathlib.Tactic.LinearCombination
import Mathlib.Tactic.Linarith
import Mathlib.Tactic.Positivity
import Mathlib.Tactic.FieldSimp
import Mathlib.Tactic.Ring

namespace DNDSR.Krylov

open Finset

variable {K V : Type} [Field K] [LinearOrder K] [IsStrictOrderedRing K] [AddCommGroup V] [Module K V]
variable {dot : V →ₗ[K] V →ₗ[K] K} {A ML : V →ₗ[K] V}

omit [LinearOrder K] [IsStrictOrderedRing K] in
theorem foldl_sub (col : Nat → K) (Vs : Nat → V) (n : Nat) (w : V) :
    (List.range n).foldl (fun w i => w + (-col i) • Vs i) w = w - ∑ i ∈ range n, col i • Vs i := by
  induction n with
  | zero => simp
  | succ n ih =>
    rw [List.range_succ, List.foldl_append, ih, sum_range_succ]
    simp only [List.foldl_cons, List.foldl_nil]
    module

omit [LinearOrder K] [IsStrictOrderedRing K] in
theorem addBasis_eq (Vs : Nat → V) (y : Nat → K) (j : Nat) (x : V) : addBasis Vs y j x = x + ∑ i ∈ range j, y i • Vs i := by
  unfold addBasis
  induction j with
  | zero => simp
  | succ n ih =>
    rw [List.range_succ, List.foldl_append, ih, sum_range_succ]
    simp only [List.foldl_cons, List.foldl_nil]
    abel

/-- what holds before column `j` -/
structure Arn (dot : V →ₗ[K] V →ₗ[K] K) (A ML : V →ₗ[K] V) (v0 : V) (j : Nat) (Vs : Nat → V) (h : Nat → Nat → K) : Prop where
  first : Vs 0 = v0
  orth : ∀ i ≤ j, ∀ k ≤ j, dot (Vs i) (Vs k) = if i = k then 1 else 0
  rel : ∀ c < j, ML (A (Vs c)) = ∑ i ∈ range (c + 2), h i c • Vs i
  zero : ∀ i c, c + 1 < i → h i c = 0
  span : ∀ i ≤ j, (fun v => ML (A v))^[i] v0 ∈ Submodule.span K (Vs '' Set.Iic i)

theorem upd_self {α : Type} (f : Nat → α) (i : Nat) (a : α) : upd f i a i = a := by simp [upd]
theorem upd_ne {α : Type} (f : Nat → α) (i : Nat) (a : α) (k : Nat) (h : k ≠ i) : upd f i a k = f k := by simp [upd, h]

/-- the Arnoldi loop ends after some number of columns with the relation `ML A V_j = V_{j+1} H` and orthonormal `V` -/
theorem arnoldi_spec (symm : ∀ u v, dot u v = dot v u) (pos : ∀ u, 0 ≤ dot u u) (sqrt : K → K)
    (hs : ∀ a, 0 ≤ a → 0 ≤ sqrt a ∧ sqrt a * sqrt a = a) (scale : K) (hsc : 0 < scale) (v0 : V) (n j : Nat) (Vs : Nat → V)
    (h : Nat → Nat → K) (I : Arn dot A ML v0 j Vs h) :
    ∃ j' Vs' h', arnoldi A ML (fun u v => dot u v) sqrt scale n j Vs h = .ok (j', Vs', h') ∧ j ≤ j' ∧ j' ≤ j + n ∧
      Arn dot A ML v0 j' Vs' h' := by
  induction n generalizing j Vs h with
  | zero => exact ⟨j, Vs, h, rfl, le_refl _, le_refl _, I⟩
  | succ n ih =>
    simp only [arnoldi, gramSchmidt, foldl_sub]
    set w := ML (A (Vs j)) with hw
    set w' := w - ∑ i ∈ range (j + 1), dot w (Vs i) • Vs i with hw'
    set hn := sqrt (dot w' w') with hhn
    obtain ⟨hn0, hn1⟩ := hs (dot w' w') (pos w')
    rw [← hhn] at hn0 hn1
    have horth : ∀ k ≤ j, dot w' (Vs k) = 0 := by
      intro k hk
      rw [hw', map_sub, LinearMap.sub_apply, map_sum, LinearMap.sum_apply]
      have : ∑ i ∈ range (j + 1), (dot (dot w (Vs i) • Vs i)) (Vs k) = dot w (Vs k) := by
        rw [sum_eq_single k]
        · rw [map_smul, LinearMap.smul_apply, I.orth k hk k hk, if_pos rfl, smul_eq_mul, mul_one]
        · intro i hi hik
          rw [map_smul, LinearMap.smul_apply, I.orth i (by simp at hi; omega) k hk, if_neg hik, smul_zero]
        · intro hk'; simp at hk'; omega
      rw [this, sub_self]
    split
    · rename_i hlt
      refine ⟨j, _, _, rfl, le_refl _, by omega, ⟨?_, ?_, ?_, ?_, ?_⟩⟩
      · rw [upd_ne _ _ _ _ (by omega)]; exact I.first
      · intro i hi k hk
        rw [upd_ne _ _ _ _ (by omega), upd_ne _ _ _ _ (by omega)]
        exact I.orth i hi k hk
      · intro c hc
        rw [upd_ne _ _ _ _ (by omega), I.rel c hc]
        apply sum_congr rfl
        intro i hi
        simp only [mem_range] at hi
        rw [upd_ne _ _ _ _ (by omega), if_neg (by omega)]
      · intro i c hic
        by_cases hc : c = j
        · rw [if_pos hc, if_neg (by omega), if_neg (by omega)]; exact I.zero i c hic
        · rw [if_neg hc]; exact I.zero i c hic
      · intro i hi
        have : upd Vs (j + 1) w' '' Set.Iic i = Vs '' Set.Iic i := by
          apply Set.image_congr
          intro k hk
          exact upd_ne _ _ _ _ (by simp at hk; omega)
        rw [this]; exact I.span i hi
    · rename_i hlt
      have hpos : 0 < hn := by
        have : 0 < scale * (1 / 10 ^ 32) := by positivity
        linarith [not_lt.mp hlt]
      rw [if_neg hpos.ne']
      set u := (1 / hn) • w' with hu
      have hwu : w' = hn • u := by rw [hu, smul_smul, mul_one_div_cancel hpos.ne', one_smul]
      have hwsum : w = ∑ i ∈ range (j + 1), dot w (Vs i) • Vs i + hn • u := by rw [← hwu, hw']; abel
      have hrel : ∀ (h' : Nat → Nat → K), (∀ i ≤ j, h' i j = dot w (Vs i)) → h' (j + 1) j = hn →
          w = ∑ i ∈ range (j + 2), h' i j • upd Vs (j + 1) u i := by
        intro h' h1 h2
        rw [sum_range_succ, upd_self, h2]
        rw [sum_congr rfl (g := fun i => dot w (Vs i) • Vs i)]
        · exact hwsum
        · intro i hi
          simp only [mem_range] at hi
          rw [h1 i (by omega), upd_ne _ _ _ _ (by omega)]
      have I' : Arn dot A ML v0 (j + 1) (upd Vs (j + 1) u) (fun i c => if c = j then (if i ≤ j then dot w (Vs i) else if i = j + 1 then hn else h i c) else h i c) := by
        refine ⟨?_, ?_, ?_, ?_, ?_⟩
        · rw [upd_ne _ _ _ _ (by omega)]; exact I.first
        · have hul : ∀ k ≤ j, dot u (Vs k) = 0 := by
            intro k hk
            rw [hu, map_smul, LinearMap.smul_apply, horth k hk, smul_zero]
          have huu : dot u u = 1 := by
            rw [hu, map_smul, map_smul, LinearMap.smul_apply, ← hn1, smul_eq_mul, smul_eq_mul]
            field_simp
          intro i hi k hk
          by_cases h1 : i = j + 1
          · by_cases h2 : k = j + 1
            · rw [h1, h2, upd_self, huu, if_pos rfl]
            · rw [h1, upd_self, upd_ne _ _ _ _ h2, hul k (by omega), if_neg (by omega)]
          · by_cases h2 : k = j + 1
            · rw [h2, upd_self, upd_ne _ _ _ _ h1, symm, hul i (by omega), if_neg (by omega)]
            · rw [upd_ne _ _ _ _ h1, upd_ne _ _ _ _ h2]
              exact I.orth i (by omega) k (by omega)
        · intro c hc
          by_cases hcj : c = j
          · subst hcj
            rw [upd_ne _ _ _ _ (by omega)]
            exact hrel (fun i d => if d = c then (if i ≤ c then dot w (Vs i) else if i = c + 1 then hn else h i d) else h i d)
              (fun i hi => by rw [if_pos rfl, if_pos hi]) (by simp)
          · rw [upd_ne _ _ _ _ (by omega), I.rel c (by omega)]
            apply sum_congr rfl
            intro i hi
            simp only [mem_range] at hi
            rw [upd_ne _ _ _ _ (by omega), if_neg hcj]
        · intro i c hic
          by_cases hc : c = j
          · rw [if_pos hc, if_neg (by omega), if_neg (by omega)]; exact I.zero i c hic
          · rw [if_neg hc]; exact I.zero i c hic
        · have hold : ∀ i ≤ j, upd Vs (j + 1) u '' Set.Iic i = Vs '' Set.Iic i := by
            intro i hi
            apply Set.image_congr
            intro k hk
            exact upd_ne _ _ _ _ (by simp at hk; omega)
          intro i hi
          by_cases hij : i ≤ j
          · rw [hold i hij]; exact I.span i hij
          · obtain rfl : i = j + 1 := by omega
            rw [Function.iterate_succ_apply']
            -- the image of the span of the first j+1 vectors
            have himg : ∀ v ∈ Submodule.span K (Vs '' Set.Iic j), ML (A v) ∈ Submodule.span K (upd Vs (j + 1) u '' Set.Iic (j + 1)) := by
              intro v hv
              induction hv using Submodule.span_induction with
              | mem v hv =>
                obtain ⟨c, hc, rfl⟩ := hv
                simp only [Set.mem_Iic] at hc
                have hmem : ∀ i ≤ j + 1, upd Vs (j + 1) u i ∈ Submodule.span K (upd Vs (j + 1) u '' Set.Iic (j + 1)) :=
                  fun i hi => Submodule.subset_span ⟨i, hi, rfl⟩
                by_cases hcj : c = j
                · rw [hcj, ← hw, hrel (fun i c => if c = j then (if i ≤ j then dot w (Vs i) else if i = j + 1 then hn else h i c) else h i c)
                    (fun i hi => by rw [if_pos rfl, if_pos hi]) (by simp)]
                  exact Submodule.sum_mem _ fun i hi => Submodule.smul_mem _ _ (hmem i (by simp at hi; omega))
                · rw [I.rel c (by omega)]
                  refine Submodule.sum_mem _ fun i hi => Submodule.smul_mem _ _ ?_
                  simp only [mem_range] at hi
                  have := hmem i (by omega)
                  rwa [upd_ne _ _ _ _ (by omega)] at this
              | zero => simp
              | add v w _ _ h1 h2 => rw [map_add, map_add]; exact Submodule.add_mem _ h1 h2
              | smul a v _ h1 => rw [map_smul, map_smul]; exact Submodule.smul_mem _ _ h1
            exact himg _ (I.span j (le_refl _))
      obtain ⟨j', Vs', h', f1, f2, f3, f4⟩ := ih (j + 1) _ _ I'
      exact ⟨j', Vs', h', f1, by omega, by omega, f4⟩

omit [LinearOrder K] [IsStrictOrderedRing K] in
/-- the norm of a combination of the orthonormal vectors -/
theorem norm_comb (Vs : Nat → V) (j : Nat) (orth : ∀ i ≤ j, ∀ k ≤ j, dot (Vs i) (Vs k) = if i = k then 1 else 0) (a : Nat → K) :
    dot (∑ i ∈ range (j + 1), a i • Vs i) (∑ i ∈ range (j + 1), a i • Vs i) = ∑ i ∈ range (j + 1), a i ^ 2 := by
  rw [LinearMap.map_sum₂]
  apply sum_congr rfl
  intro i hi
  simp only [mem_range] at hi
  rw [map_smul, LinearMap.smul_apply, map_sum, sum_eq_single i]
  · rw [map_smul, orth i (by omega) i (by omega), if_pos rfl, smul_eq_mul, smul_eq_mul]; ring
  · intro k hk hki
    simp only [mem_range] at hk
    rw [map_smul, orth i (by omega) k (by omega), if_neg (by omega), smul_zero]
  · intro h; simp at h; omega

omit [LinearOrder K] [IsStrictOrderedRing K] in
/-- the residual of `x + V y` in the basis -/
theorem resSq_basis (b x : V) (beta : K) (v0 : V) (hr : ML (b - A x) = beta • v0) (j : Nat) (Vs : Nat → V) (h : Nat → Nat → K)
    (I : Arn dot A ML v0 j Vs h) (y : Nat → K) :
    resSq dot A ML b (x + ∑ c ∈ range j, y c • Vs c) =
      ∑ i ∈ range (j + 1), ((if i = 0 then beta else 0) - ∑ c ∈ range j, h i c * y c) ^ 2 := by
  unfold resSq
  have e : ML (b - A (x + ∑ c ∈ range j, y c • Vs c)) =
      ∑ i ∈ range (j + 1), ((if i = 0 then beta else 0) - ∑ c ∈ range j, h i c * y c) • Vs i := by
    have e1 : b - A (x + ∑ c ∈ range j, y c • Vs c) = (b - A x) - A (∑ c ∈ range j, y c • Vs c) := by rw [map_add]; abel
    rw [e1, map_sub, hr]
    simp only [sub_smul, sum_sub_distrib]
    congr 1
    · rw [sum_eq_single 0]
      · rw [if_pos rfl, I.first]
      · intro i _ hi; rw [if_neg hi, zero_smul]
      · simp
    · rw [map_sum, map_sum]
      have : ∀ c ∈ range j, ML (A (y c • Vs c)) = ∑ i ∈ range (j + 1), (h i c * y c) • Vs i := by
        intro c hc
        simp only [mem_range] at hc
        rw [map_smul, map_smul, I.rel c hc, smul_sum]
        have hsub : range (c + 2) ⊆ range (j + 1) := by
          intro i hi; simp only [mem_range] at hi ⊢; omega
        rw [← sum_subset hsub]
        · apply sum_congr rfl; intro i _; rw [smul_smul, mul_comm]
        · intro i _ hi2
          simp only [mem_range] at hi2
          rw [I.zero i c (by omega), zero_mul, zero_smul]
      rw [sum_congr rfl this, sum_comm]
      apply sum_congr rfl
      intro i _
      rw [sum_smul]
  rw [e]
  exact norm_comb Vs j I.orth _

omit [LinearOrder K] [IsStrictOrderedRing K] in
theorem mem_span_image (Vs : Nat → V) (j : Nat) (v : V) (hv : v ∈ Submodule.span K (Vs '' Set.Iio j)) :
    ∃ y : Nat → K, v = ∑ c ∈ range j, y c • Vs c := by
  induction hv using Submodule.span_induction with
  | mem v hv =>
    obtain ⟨c, hc, rfl⟩ := hv
    refine ⟨fun i => if i = c then 1 else 0, ?_⟩
    rw [sum_eq_single c]
    · simp
    · intro i _ hi; simp [hi]
    · intro h; simp at h hc; omega
  | zero => exact ⟨fun _ => 0, by simp⟩
  | add v w _ _ h1 h2 =>
    obtain ⟨y, rfl⟩ := h1
    obtain ⟨z, rfl⟩ := h2
    exact ⟨fun i => y i + z i, by simp only [add_smul, sum_add_distrib]⟩
  | smul a v _ h1 =>
    obtain ⟨y, rfl⟩ := h1
    exact ⟨fun i => a * y i, by simp only [smul_sum, smul_smul]⟩

omit [IsStrictOrderedRing K] in
/-- one cycle minimizes over the Krylov space -/
theorem cycle_min (lsq : Nat → (Nat → Nat → K) → K → (Nat → K) × Nat) (hl : IsLsq lsq) (b x : V) (beta : K) (v0 : V)
    (hr : ML (b - A x) = beta • v0) (j : Nat) (Vs : Nat → V) (h : Nat → Nat → K) (I : Arn dot A ML v0 j Vs h) :
    KrylovMin dot A ML b x (addBasis Vs (lsq j h beta).1 j x) j := by
  intro c
  have hmem : ∑ i ∈ range j, c i • (fun v => ML (A v))^[i] (ML (b - A x)) ∈ Submodule.span K (Vs '' Set.Iio j) := by
    refine Submodule.sum_mem _ fun i hi => Submodule.smul_mem _ _ ?_
    simp only [mem_range] at hi
    have e : (fun v => ML (A v))^[i] (beta • v0) = beta • (fun v => ML (A v))^[i] v0 := by
      clear hi
      induction i with
      | zero => rfl
      | succ i ih => rw [Function.iterate_succ_apply', Function.iterate_succ_apply', ih, map_smul, map_smul]
    rw [hr, e]
    refine Submodule.smul_mem _ _ (Submodule.span_mono ?_ (I.span i (by omega)))
    exact Set.image_mono (fun k hk => by simp at hk ⊢; omega)
  obtain ⟨y, hy⟩ := mem_span_image Vs j _ hmem
  rw [hy, addBasis_eq, resSq_basis b x beta v0 hr j Vs h I, resSq_basis b x beta v0 hr j Vs h I]
  exact hl j h beta y

end DNDSR.Krylov

namespace DNDSR.Krylov

open Finset

variable {K : Type} [Field K] [LinearOrder K] [IsStrictOrderedRing K]

/-- every vector splits into a combination of `h 0 .. h (j-1)` and a part orthogonal to them -/
theorem exists_split (m : Nat) (h : Nat → Nat → K) (j : Nat) (u : Nat → K) :
    ∃ y : Nat → K, ∀ c < j, ∑ i ∈ range m, (u i - ∑ d ∈ range j, h i d * y d) * h i c = 0 := by
  induction j generalizing u with
  | zero => exact ⟨fun _ => 0, fun c hc => absurd hc (Nat.not_lt_zero c)⟩
  | succ j ih =>
    obtain ⟨y, hy⟩ := ih u
    obtain ⟨z, hz⟩ := ih (fun i => h i j)
    obtain ⟨e, he⟩ : ∃ e : Nat → K, e = fun i => u i - ∑ d ∈ range j, h i d * y d := ⟨_, rfl⟩
    obtain ⟨f, hf⟩ : ∃ f : Nat → K, f = fun i => h i j - ∑ d ∈ range j, h i d * z d := ⟨_, rfl⟩
    have hy' : ∀ c < j, ∑ i ∈ range m, e i * h i c = 0 := by rw [he]; exact hy
    have hz' : ∀ c < j, ∑ i ∈ range m, f i * h i c = 0 := by rw [hf]; exact hz
    have comb : ∀ (g : Nat → K) (w : Nat → K), (∀ c < j, ∑ i ∈ range m, g i * h i c = 0) →
        ∑ i ∈ range m, g i * ∑ d ∈ range j, h i d * w d = 0 := by
      intro g w hg
      simp only [mul_sum]
      rw [sum_comm]
      apply sum_eq_zero
      intro d hd
      have := hg d (mem_range.mp hd)
      rw [← zero_mul (w d), ← this, sum_mul]
      exact sum_congr rfl fun i _ => by ring
    obtain ⟨t, ht⟩ : ∃ t : K, ∑ i ∈ range m, (e i - t * f i) * f i = 0 := by
      by_cases hff : ∑ i ∈ range m, f i * f i = 0
      · refine ⟨0, ?_⟩
        have hz0 : ∀ i ∈ range m, f i * f i = 0 := (sum_eq_zero_iff_of_nonneg fun i _ => mul_self_nonneg _).mp hff
        exact sum_eq_zero fun i hi => by rw [mul_self_eq_zero.mp (hz0 i hi), mul_zero]
      · refine ⟨(∑ i ∈ range m, e i * f i) / ∑ i ∈ range m, f i * f i, ?_⟩
        simp only [sub_mul, mul_assoc, sum_sub_distrib]
        rw [← mul_sum, div_mul_cancel₀ _ hff, sub_self]
    have hef : ∀ c < j, ∑ i ∈ range m, (e i - t * f i) * h i c = 0 := by
      intro c hc
      simp only [sub_mul, mul_assoc, sum_sub_distrib]
      rw [← mul_sum, hy' c hc, hz' c hc, mul_zero, sub_zero]
    refine ⟨fun d => if d = j then t else y d - t * z d, ?_⟩
    have key : ∀ i, u i - ∑ d ∈ range (j + 1), h i d * (if d = j then t else y d - t * z d) = e i - t * f i := by
      intro i
      rw [sum_range_succ, if_pos rfl]
      have : ∑ d ∈ range j, h i d * (if d = j then t else y d - t * z d) =
          ∑ d ∈ range j, h i d * y d - t * ∑ d ∈ range j, h i d * z d := by
        rw [mul_sum, ← sum_sub_distrib]
        refine sum_congr rfl fun d hd => ?_
        rw [if_neg (by simp at hd; omega)]
        ring
      rw [this, he, hf]
      ring
    simp only [key]
    intro c hc
    by_cases hcj : c < j
    · exact hef c hcj
    · obtain rfl : c = j := by omega
      have h1 : ∀ i, (e i - t * f i) * h i c = (e i - t * f i) * f i + (e i - t * f i) * ∑ d ∈ range c, h i d * z d := by
        intro i
        rw [← mul_add]
        congr 1
        rw [hf]
        ring
      simp only [h1, sum_add_distrib]
      rw [ht, comb _ z hef, add_zero]

/-- a least squares routine exists, over every ordered field -/
theorem exists_lsq : ∃ lsq : Nat → (Nat → Nat → K) → K → (Nat → K) × Nat, IsLsq lsq ∧ ∀ j h beta, (lsq j h beta).2 = j := by
  have : ∀ (j : Nat) (h : Nat → Nat → K) (beta : K), ∃ y : Nat → K, ∀ y' : Nat → K,
      ∑ i ∈ range (j + 1), ((if i = 0 then beta else 0) - ∑ c ∈ range j, h i c * y c) ^ 2 ≤
      ∑ i ∈ range (j + 1), ((if i = 0 then beta else 0) - ∑ c ∈ range j, h i c * y' c) ^ 2 := by
    intro j h beta
    obtain ⟨y, hy⟩ := exists_split (j + 1) h j (fun i => if i = 0 then beta else 0)
    refine ⟨y, fun y' => ?_⟩
    have hcross : ∑ i ∈ range (j + 1), ((if i = 0 then beta else 0) - ∑ c ∈ range j, h i c * y c) * ∑ c ∈ range j, h i c * (y c - y' c) = 0 := by
      simp only [mul_sum]
      rw [sum_comm]
      apply sum_eq_zero
      intro d hd
      have := hy d (mem_range.mp hd)
      refine Eq.trans ?_ ((congrArg (· * (y d - y' d)) this).trans (zero_mul _))
      simp only [sum_mul]
      exact sum_congr rfl fun i _ => by ring
    have e : ∀ i, (if i = 0 then beta else 0) - ∑ c ∈ range j, h i c * y' c =
        ((if i = 0 then beta else 0) - ∑ c ∈ range j, h i c * y c) + ∑ c ∈ range j, h i c * (y c - y' c) := by
      intro i
      simp only [mul_sub, sum_sub_distrib]
      ring
    have hq : ∑ i ∈ range (j + 1), ((if i = 0 then beta else 0) - ∑ c ∈ range j, h i c * y' c) ^ 2 =
        ∑ i ∈ range (j + 1), ((if i = 0 then beta else 0) - ∑ c ∈ range j, h i c * y c) ^ 2 +
          (2 * ∑ i ∈ range (j + 1), ((if i = 0 then beta else 0) - ∑ c ∈ range j, h i c * y c) * ∑ c ∈ range j, h i c * (y c - y' c)) +
          ∑ i ∈ range (j + 1), (∑ c ∈ range j, h i c * (y c - y' c)) ^ 2 := by
      rw [mul_sum, ← sum_add_distrib, ← sum_add_distrib]
      refine sum_congr rfl fun i _ => ?_
      rw [e i]
      ring
    rw [hq, hcross]
    have : 0 ≤ ∑ i ∈ range (j + 1), (∑ c ∈ range j, h i c * (y c - y' c)) ^ 2 := sum_nonneg fun i _ => sq_nonneg _
    linarith
  choose f hf using this
  exact ⟨fun j h beta => (f j h beta, j), fun j h beta y' => hf j h beta y', fun _ _ _ => rfl⟩

end DNDSR.Krylov
