import Verif.Proof.DofVec

/-!
# Averages over time (C89) and reported norms (C90)
-/

namespace DNDSR.Dof

open DNDSR.IMap
open Matrix

variable {n : Nat}

/-! ## Averages over time -/

/-- entry `c` of row `i`, own rows first -/
def val (p : Part n) (i : Nat) (c : Fin n) : ℝ := (p.father ++ p.son).getD i 0 c

/-- as many own rows and copies -/
def Like (p q : Part n) : Prop := p.father.length = q.father.length ∧ p.son.length = q.son.length

/-- the additions of a run, `src/Euler/EulerSolver_Init.hxx:738-743` -/
noncomputable def averages (avg : Part n) (t : ℝ) (hist : List (Part n × ℝ)) : Res (Part n × ℝ) := hist.foldlM (fun s h => timeAverage h.1 s.1 h.2 s.2) (avg, t)

theorem val_zip (f : Row n → Row n → Row n) (p q : Part n) (hl : Like p q) {i : Nat} (hi : i < p.father.length + p.son.length) (c : Fin n) :
    val ⟨List.zipWith f p.father q.father, List.zipWith f p.son q.son⟩ i c = f ((p.father ++ p.son).getD i 0) ((q.father ++ q.son).getD i 0) c := by
  have h1 : i < (p.father ++ p.son).length := by rw [List.length_append]; exact hi
  have h2 : i < (q.father ++ q.son).length := by rw [List.length_append, ← hl.1, ← hl.2]; exact hi
  unfold val
  rw [← List.zipWith_append hl.1, List.getD_eq_getElem?_getD, List.getElem?_zipWith, List.getD_eq_getElem?_getD, List.getD_eq_getElem?_getD, List.getElem?_eq_getElem h1, List.getElem?_eq_getElem h2]
  rfl

theorem average_step (w avg : Part n) {dt t : ℝ} (hl : Like w avg) (ht : 0 ≤ t) (hdt : 0 ≤ dt) :
    ∃ avg', timeAverage w avg dt t = .ok (avg', t + (dt + (10 : ℝ)⁻¹ ^ 200)) ∧ Like avg' avg ∧
      ∀ i < avg.father.length + avg.son.length, ∀ c, (t + (dt + (10 : ℝ)⁻¹ ^ 200)) * val avg' i c = t * val avg i c + (dt + (10 : ℝ)⁻¹ ^ 200) * val w i c := by
  have he : (0 : ℝ) < (10 : ℝ)⁻¹ ^ 200 := by positivity
  unfold timeAverage
  generalize (10 : ℝ)⁻¹ ^ 200 = e at he
  have hs : Like (avg.each (.scale (t / (t + dt + e)))) w := ⟨by simp [Part.each, hl.1], by simp [Part.each, hl.2]⟩
  simp only
  rw [addTo_eq _ _ _ hs.1 hs.2, Res.ok_bind]
  refine ⟨_, rfl, ⟨by simp [Part.each, hl.1], by simp [Part.each, hl.2]⟩, fun i hi c => ?_⟩
  have hlen : i < (avg.each (.scale (t / (t + dt + e)))).father.length + (avg.each (.scale (t / (t + dt + e)))).son.length := by simpa [Part.each] using hi
  rw [val_zip (fun u w => u + ((dt + e) / (t + dt + e)) • w) _ w hs hlen c]
  have hsc : ((avg.each (.scale (t / (t + dt + e)))).father ++ (avg.each (.scale (t / (t + dt + e)))).son).getD i 0 c = val avg i c * (t / (t + dt + e)) := by
    have h1 : i < (avg.father ++ avg.son).length := by rw [List.length_append]; exact hi
    simp only [Part.each, val]
    rw [← List.map_append, List.getD_eq_getElem?_getD, List.getElem?_map, List.getD_eq_getElem?_getD, List.getElem?_eq_getElem h1]
    rfl
  have hne : t + dt + e ≠ 0 := by linarith
  simp only [Pi.add_apply, Pi.smul_apply, smul_eq_mul]
  rw [hsc]
  unfold val
  field_simp
  ring

/-- **C89** For any history of additions with steps not negative, started at any time `t₀ ≥ 0` with any average: the time kept is `t₀` and the steps together (each with the guard `1e-200`), and the average of every
entry of every row, copies included, is the mean of the values added, weighted with their steps, and of the average at the start, weighted with `t₀`. -/
theorem time_average : ∀ (hist : List (Part n × ℝ)) (avg : Part n) (t₀ : ℝ), 0 ≤ t₀ → (∀ h ∈ hist, Like h.1 avg ∧ 0 ≤ h.2) →
    ∃ avg' t, averages avg t₀ hist = .ok (avg', t) ∧ Like avg' avg ∧ t = t₀ + (hist.map fun h => h.2 + (10 : ℝ)⁻¹ ^ 200).sum ∧
      ∀ i < avg.father.length + avg.son.length, ∀ c, t * val avg' i c = t₀ * val avg i c + (hist.map fun h => (h.2 + (10 : ℝ)⁻¹ ^ 200) * val h.1 i c).sum
  | [], avg, t₀, _, _ => ⟨avg, t₀, rfl, ⟨rfl, rfl⟩, by simp, fun i _ c => by simp⟩
  | (w, dt) :: hist, avg, t₀, h0, hh => by
    have he : (0 : ℝ) < (10 : ℝ)⁻¹ ^ 200 := by positivity
    obtain ⟨hl, hdt⟩ := hh (w, dt) (by simp)
    obtain ⟨a1, e1, l1, v1⟩ := average_step w avg hl h0 hdt
    obtain ⟨a2, t, e2, l2, ht, v2⟩ := time_average hist a1 (t₀ + (dt + (10 : ℝ)⁻¹ ^ 200)) (by linarith) fun h hm =>
      ⟨⟨(hh h (by simp [hm])).1.1.trans l1.1.symm, (hh h (by simp [hm])).1.2.trans l1.2.symm⟩, (hh h (by simp [hm])).2⟩
    refine ⟨a2, t, ?_, ⟨l2.1.trans l1.1, l2.2.trans l1.2⟩, ?_, fun i hi c => ?_⟩
    · rw [averages, List.foldlM_cons, e1]
      exact e2
    · rw [ht, List.map_cons, List.sum_cons, add_assoc]
    · rw [v2 i (by rw [l1.1, l1.2]; exact hi) c, v1 i hi c, List.map_cons, List.sum_cons, add_assoc]

/-- **C89, bounds** A run that starts averaging at time zero reports averages between the smallest and the largest value added, whatever the array for averages held at the start. -/
theorem average_between (hist : List (Part n × ℝ)) (hne : hist ≠ []) (avg : Part n) (hh : ∀ h ∈ hist, Like h.1 avg ∧ 0 ≤ h.2) :
    ∃ avg' t, averages avg 0 hist = .ok (avg', t) ∧ ∀ i < avg.father.length + avg.son.length, ∀ c, ∀ a b, (∀ h ∈ hist, a ≤ val h.1 i c ∧ val h.1 i c ≤ b) →
      a ≤ val avg' i c ∧ val avg' i c ≤ b := by
  obtain ⟨avg', t, e, -, ht, hv⟩ := time_average hist avg 0 le_rfl hh
  refine ⟨avg', t, e, fun i hi c a b hab => ?_⟩
  have he : (0 : ℝ) < (10 : ℝ)⁻¹ ^ 200 := by positivity
  have hv := hv i hi c
  rw [zero_mul, zero_add] at hv
  rw [zero_add] at ht
  have hpos : ∀ l : List (Part n × ℝ), l ≠ [] → (∀ h ∈ l, 0 ≤ h.2) → 0 < (l.map fun h => h.2 + (10 : ℝ)⁻¹ ^ 200).sum := by
    intro l hl hp
    refine List.sum_pos _ (fun x hx => ?_) (by simpa using hl)
    obtain ⟨h, hm, rfl⟩ := List.mem_map.1 hx
    have := hp h hm
    linarith
  have htp : 0 < t := by rw [ht]; exact hpos hist hne fun h hm => (hh h hm).2
  have lo : ∀ l : List (Part n × ℝ), (∀ h ∈ l, 0 ≤ h.2 ∧ a ≤ val h.1 i c) → a * (l.map fun h => h.2 + (10 : ℝ)⁻¹ ^ 200).sum ≤ (l.map fun h => (h.2 + (10 : ℝ)⁻¹ ^ 200) * val h.1 i c).sum := by
    intro l hl
    rw [← List.sum_map_mul_left]
    refine List.sum_le_sum fun h hm => ?_
    have := hl h hm
    rw [mul_comm]
    exact mul_le_mul_of_nonneg_left this.2 (by linarith)
  have hi' : ∀ l : List (Part n × ℝ), (∀ h ∈ l, 0 ≤ h.2 ∧ val h.1 i c ≤ b) → (l.map fun h => (h.2 + (10 : ℝ)⁻¹ ^ 200) * val h.1 i c).sum ≤ b * (l.map fun h => h.2 + (10 : ℝ)⁻¹ ^ 200).sum := by
    intro l hl
    rw [← List.sum_map_mul_left]
    refine List.sum_le_sum fun h hm => ?_
    have := hl h hm
    rw [mul_comm b]
    exact mul_le_mul_of_nonneg_left this.2 (by linarith)
  have h1 := lo hist fun h hm => ⟨(hh h hm).2, (hab h hm).1⟩
  have h2 := hi' hist fun h hm => ⟨(hh h hm).2, (hab h hm).2⟩
  rw [← ht, ← hv] at h1 h2
  constructor
  · nlinarith
  · nlinarith

/-- the hypotheses of `time_average` and `average_between`: two additions, one of them with a step of zero -/
example : ∃ avg' t, averages (⟨[fun _ => 7], []⟩ : Part 1) 0 [(⟨[fun _ => 1], []⟩, 3), (⟨[fun _ => 2], []⟩, 0)] = .ok (avg', t) ∧ 1 ≤ val avg' 0 0 ∧ val avg' 0 0 ≤ 2 := by
  obtain ⟨avg', t, e, h⟩ := average_between (n := 1) [(⟨[fun _ => 1], []⟩, 3), (⟨[fun _ => 2], []⟩, 0)] (by simp) ⟨[fun _ => 7], []⟩ (by
    intro h hm
    simp only [List.mem_cons, List.not_mem_nil, or_false] at hm
    rcases hm with rfl | rfl
    · exact ⟨⟨rfl, rfl⟩, by norm_num⟩
    · exact ⟨⟨rfl, rfl⟩, by norm_num⟩)
  refine ⟨avg', t, e, h 0 (by simp) 0 1 2 ?_⟩
  intro h hm
  simp only [List.mem_cons, List.not_mem_nil, or_false] at hm
  rcases hm with rfl | rfl <;> norm_num [val]

/-! ## Norms -/

/-- the cells of all ranks with their volumes, or with weight one each -/
def weighted (volWise : Bool) (rhs : List (Part n × List ℝ)) : List (Row n × ℝ) :=
  rhs.flatMap fun x => if volWise then x.1.father.zip x.2 else x.1.father.map fun u => (u, 1)

theorem evalNormP_eq (P : Nat) (volWise average : Bool) (rhs : List (Part n × List ℝ)) (hl : ∀ x ∈ rhs, x.2.length = x.1.father.length) (c : Fin n) :
    evalNormP P volWise average rhs c =
      .ok (((weighted volWise rhs).map fun q => |q.1 c| ^ P * q.2).sum ^ (1 / (P : ℝ)) * if average then 1 / (((weighted volWise rhs).map (·.2)).sum + (10 : ℝ)⁻¹ ^ 200) else 1) := by
  have hone : ∀ x ∈ rhs, forRanks (fun i (u : Row n) =>
      if volWise then do
        let v ← idx x.2 i
        .ok (|u c| ^ P * v, v)
      else .ok (|u c| ^ P, (1 : ℝ))) 0 x.1.father = .ok ((if volWise then x.1.father.zip x.2 else x.1.father.map fun u => (u, 1)).map fun q => (|q.1 c| ^ P * q.2, q.2)) := by
    intro x hx
    cases volWise with
    | false =>
      simp only [Bool.false_eq_true, if_false]
      rw [forRanks_at (g := fun u : Row n => (|u c| ^ P, (1 : ℝ))) _ _ (fun i y _ => rfl)]
      simp [Function.comp_def]
    | true =>
      simp only [if_true]
      refine (forRanks_ok _ _ _ _).2 ⟨by simp [hl x hx], fun i u hu => ?_⟩
      have hi : i < x.2.length := by rw [hl x hx]; exact (List.getElem?_eq_some_iff.1 hu).1
      have hv : x.2[i]? = some x.2[i] := List.getElem?_eq_getElem hi
      refine ⟨(|u c| ^ P * x.2[i], x.2[i]), ?_, ?_⟩
      · have hz : (x.1.father.zip x.2)[i]? = some (u, x.2[i]) := List.getElem?_zip_eq_some.2 ⟨hu, hv⟩
        rw [List.getElem?_map, hz]
        rfl
      · rw [Nat.zero_add, idx, hv, Res.ok_bind]
  have hall : ∀ (rs : List (Part n × List ℝ)) (k : Nat), (∀ x ∈ rs, x ∈ rhs) → forRanks (fun _ (x : Part n × List ℝ) => do
      let terms ← forRanks (fun i (u : Row n) =>
        if volWise then do
          let v ← idx x.2 i
          .ok (|u c| ^ P * v, v)
        else .ok (|u c| ^ P, (1 : ℝ))) 0 x.1.father
      .ok ((terms.map (·.1)).foldl (· + ·) 0, (terms.map (·.2)).foldl (· + ·) 0)) k rs = .ok (rs.map fun x =>
        ((((if volWise then x.1.father.zip x.2 else x.1.father.map fun u => (u, 1)).map fun q => |q.1 c| ^ P * q.2)).sum,
          ((if volWise then x.1.father.zip x.2 else x.1.father.map fun u => (u, (1 : ℝ))).map (·.2)).sum)) := by
    intro rs k hs
    refine forRanks_at _ _ fun i x hx => ?_
    rw [hone x (hs x (List.mem_of_getElem? hx)), Res.ok_bind, foldl_zero, foldl_zero, List.map_map, List.map_map]
    rfl
  have hsum : ∀ (f : Row n × ℝ → ℝ), (rhs.map fun x => ((if volWise then x.1.father.zip x.2 else x.1.father.map fun u => (u, 1)).map f).sum).sum = ((weighted volWise rhs).map f).sum := by
    intro f
    unfold weighted
    clear hone hall hl
    induction rhs with
    | nil => rfl
    | cons x rhs ih => rw [List.map_cons, List.sum_cons, ih, List.flatMap_cons, List.map_append, List.sum_append]
  unfold evalNormP
  rw [hall rhs 0 (fun x hx => hx), Res.ok_bind]
  simp only [allSum, foldl_zero, List.map_map, Function.comp_def]
  rw [hsum (fun q => |q.1 c| ^ P * q.2), hsum (fun q => q.2)]
  cases average <;> simp

/-- **C90, sums** `EvaluateNorm` with `P` 1 or 2 returns, for any number of ranks and any cells on them, the number whose `P`-th power is the sum over all cells of the `P`-th power of the entry, times the volume
if that is asked for; asked for the average, this divided by the number of cells or the volume of the mesh (plus `1e-200`). -/
theorem norm_of_mesh {P : Nat} (hP : P = 1 ∨ P = 2) (volWise average : Bool) (rhs : List (Part n × List ℝ)) (hl : ∀ x ∈ rhs, x.2.length = x.1.father.length) (hv : ∀ x ∈ rhs, ∀ v ∈ x.2, 0 ≤ v) (c : Fin n) :
    ∃ res : ℝ, 0 ≤ res ∧ res ^ P = ((weighted volWise rhs).map fun q => |q.1 c| ^ P * q.2).sum ∧
      evaluateNorm P volWise average rhs c = .ok (if average then res / (((weighted volWise rhs).map (·.2)).sum + (10 : ℝ)⁻¹ ^ 200) else res) := by
  have hw : ∀ q ∈ weighted volWise rhs, 0 ≤ q.2 := by
    intro q hq
    obtain ⟨x, hx, hm⟩ := List.mem_flatMap.1 hq
    cases volWise with
    | false =>
      obtain ⟨u, -, rfl⟩ := List.mem_map.1 hm
      exact zero_le_one
    | true => exact hv x hx q.2 (List.of_mem_zip hm).2
  have hs : 0 ≤ ((weighted volWise rhs).map fun q => |q.1 c| ^ P * q.2).sum := by
    refine List.sum_nonneg fun y hy => ?_
    obtain ⟨q, hq, rfl⟩ := List.mem_map.1 hy
    exact mul_nonneg (pow_nonneg (abs_nonneg _) _) (hw q hq)
  have hP0 : P ≠ 0 := by omega
  refine ⟨_, Real.rpow_nonneg hs (1 / (P : ℝ)), ?_, ?_⟩
  · rw [one_div, Real.rpow_inv_natCast_pow hs hP0]
  · rw [evaluateNorm, if_pos (by omega), evalNormP_eq P volWise average rhs hl c]
    cases average
    · simp
    · simp [div_eq_mul_inv]

theorem foldl_max (l : List ℝ) : ∀ a, a ≤ l.foldl max a ∧ (∀ x ∈ l, x ≤ l.foldl max a) ∧ (l.foldl max a = a ∨ l.foldl max a ∈ l) := by
  induction l with
  | nil => intro a; exact ⟨le_rfl, by simp, Or.inl rfl⟩
  | cons x l ih =>
    intro a
    obtain ⟨h1, h2, h3⟩ := ih (max a x)
    rw [List.foldl_cons]
    refine ⟨(le_max_left _ _).trans h1, fun y hy => ?_, ?_⟩
    · rcases List.mem_cons.1 hy with rfl | hy
      · exact (le_max_right _ _).trans h1
      · exact h2 y hy
    · rcases h3 with h | h
      · rw [h]
        rcases max_choice a x with h' | h'
        · exact Or.inl h'
        · exact Or.inr (by rw [h']; simp)
      · exact Or.inr (by simp [h])

theorem allMax_spec (l : List ℝ) (hl : ∀ x ∈ l, 0 ≤ x) : 0 ≤ allMax l ∧ (∀ x ∈ l, x ≤ allMax l) ∧ (allMax l = 0 ∨ allMax l ∈ l) := by
  cases l with
  | nil => exact ⟨le_rfl, by simp, Or.inl rfl⟩
  | cons a l =>
    obtain ⟨h1, h2, h3⟩ := foldl_max l a
    refine ⟨(hl a (by simp)).trans h1, fun x hx => ?_, Or.inr ?_⟩
    · rcases List.mem_cons.1 hx with rfl | hx
      · exact h1
      · exact h2 x hx
    · rcases h3 with h | h
      · rw [allMax, h]; simp
      · rw [allMax]; simp [h]

/-- **C90, maximum** `EvaluateNorm` with `P ≥ 3` returns the largest absolute value of the entry over all cells of all ranks, some of which may have no cells. -/
theorem max_norm_of_mesh {P : Nat} (hP : 3 ≤ P) (volWise average : Bool) (rhs : List (Part n × List ℝ)) (c : Fin n) :
    ∃ res : ℝ, evaluateNorm P volWise average rhs c = .ok res ∧ 0 ≤ res ∧ (∀ u ∈ glob (rhs.map (·.1)), |u c| ≤ res) ∧ (res = 0 ∨ ∃ u ∈ glob (rhs.map (·.1)), res = |u c|) := by
  refine ⟨_, by rw [evaluateNorm, if_neg (by omega)], ?_⟩
  generalize rhs.map (·.1) = v
  unfold evalNormMax
  have hnn : ∀ x ∈ v.map (fun p : Part n => (p.father.map fun u => |u c|).foldl max 0), 0 ≤ x := by
    intro x hx
    obtain ⟨p, -, rfl⟩ := List.mem_map.1 hx
    exact (foldl_max _ 0).1
  obtain ⟨h1, h2, h3⟩ := allMax_spec _ hnn
  refine ⟨h1, fun u hu => ?_, ?_⟩
  · obtain ⟨p, hp, hm⟩ := List.mem_flatMap.1 hu
    exact ((foldl_max (p.father.map fun u => |u c|) 0).2.1 _ (List.mem_map.2 ⟨u, hm, rfl⟩)).trans (h2 _ (List.mem_map.2 ⟨p, hp, rfl⟩))
  · rcases h3 with h | h
    · exact Or.inl h
    · obtain ⟨p, hp, e⟩ := List.mem_map.1 h
      rcases (foldl_max (p.father.map fun u => |u c|) 0).2.2 with h' | h'
      · exact Or.inl (e.symm.trans h')
      · obtain ⟨u, hu, eu⟩ := List.mem_map.1 h'
        exact Or.inr ⟨u, List.mem_flatMap.2 ⟨p, hp, hu⟩, by rw [← e, eu]⟩

/-- **C90, reconstructions, sums** `EvaluateRecNorm` with `P` 1 or 2: the `P`-th power of the result is the sum over all quadrature points of all cells of all ranks. -/
theorem rec_norm_of_mesh {P : Nat} (hP : P = 1 ∨ P = 2) (ranks : List (List (List (ℝ × Row n)))) (hw : ∀ cells ∈ ranks, ∀ q ∈ cells, ∀ p ∈ q, 0 ≤ p.1) (c : Fin n) :
    0 ≤ evalRecNorm P ranks c ∧ evalRecNorm P ranks c ^ P = (ranks.flatten.flatten.map fun p => |p.2 c| ^ P * p.1).sum := by
  have e : evalRecNorm P ranks c = (ranks.flatten.flatten.map fun p => |p.2 c| ^ P * p.1).sum ^ (1 / (P : ℝ)) := by
    simp only [evalRecNorm]
    rw [if_neg (by omega)]
    congr 1
    simp only [if_pos (show P < 3 by omega), allSum, foldl_zero]
    clear hw
    induction ranks with
    | nil => rfl
    | cons cells ranks ih =>
      rw [List.map_cons, List.sum_cons, ih, List.flatten_cons, List.flatten_append, List.map_append, List.sum_append]
      congr 1
      clear ih
      induction cells with
      | nil => rfl
      | cons q cells ih => rw [List.map_cons, List.sum_cons, ih, List.flatten_cons, List.map_append, List.sum_append]
  have hs : 0 ≤ (ranks.flatten.flatten.map fun p => |p.2 c| ^ P * p.1).sum := by
    refine List.sum_nonneg fun y hy => ?_
    obtain ⟨p, hp, rfl⟩ := List.mem_map.1 hy
    obtain ⟨q, hq, hpq⟩ := List.mem_flatten.1 hp
    obtain ⟨cells, hc, hqc⟩ := List.mem_flatten.1 hq
    exact mul_nonneg (pow_nonneg (abs_nonneg _) _) (hw cells hc q hqc p hpq)
  rw [e]
  refine ⟨Real.rpow_nonneg hs _, ?_⟩
  rw [one_div, Real.rpow_inv_natCast_pow hs (by omega)]

theorem cells_max (c : Fin n) (cells : List (List (ℝ × Row n))) : ∀ a, cells.foldl (fun a q => q.foldl (fun a p => max a |p.2 c|) a) a = (cells.flatten.map fun p => |p.2 c|).foldl max a := by
  induction cells with
  | nil => intro a; rfl
  | cons q cells ih =>
    intro a
    rw [List.foldl_cons, ih, List.flatten_cons, List.map_append, List.foldl_append]
    congr 1
    induction q generalizing a with
    | nil => rfl
    | cons p q ih' => rw [List.foldl_cons, ih', List.map_cons, List.foldl_cons]

/-- **C90, reconstructions, maximum** `EvaluateRecNorm` with `P > 3`: the largest absolute value at all quadrature points of all cells of all ranks. -/
theorem rec_max_of_mesh {P : Nat} (hP : 3 < P) (ranks : List (List (List (ℝ × Row n)))) (c : Fin n) :
    0 ≤ evalRecNorm P ranks c ∧ (∀ p ∈ ranks.flatten.flatten, |p.2 c| ≤ evalRecNorm P ranks c) ∧ (evalRecNorm P ranks c = 0 ∨ ∃ p ∈ ranks.flatten.flatten, evalRecNorm P ranks c = |p.2 c|) := by
  simp only [evalRecNorm]
  rw [if_pos hP]
  simp only [if_neg (show ¬ P < 3 by omega), cells_max]
  have hnn : ∀ x ∈ ranks.map (fun cells => (cells.flatten.map fun p => |p.2 c|).foldl max 0), 0 ≤ x := by
    intro x hx
    obtain ⟨p, -, rfl⟩ := List.mem_map.1 hx
    exact (foldl_max _ 0).1
  obtain ⟨h1, h2, h3⟩ := allMax_spec _ hnn
  refine ⟨h1, fun p hp => ?_, ?_⟩
  · obtain ⟨q, hq, hpq⟩ := List.mem_flatten.1 hp
    obtain ⟨cells, hc, hqc⟩ := List.mem_flatten.1 hq
    exact ((foldl_max (cells.flatten.map fun p => |p.2 c|) 0).2.1 _ (List.mem_map.2 ⟨p, List.mem_flatten.2 ⟨q, hqc, hpq⟩, rfl⟩)).trans (h2 _ (List.mem_map.2 ⟨cells, hc, rfl⟩))
  · rcases h3 with h | h
    · exact Or.inl h
    · obtain ⟨cells, hc, e⟩ := List.mem_map.1 h
      rcases (foldl_max (cells.flatten.map fun p => |p.2 c|) 0).2.2 with h' | h'
      · exact Or.inl (e.symm.trans h')
      · obtain ⟨p, hp, ep⟩ := List.mem_map.1 h'
        obtain ⟨q, hq, hpq⟩ := List.mem_flatten.1 hp
        exact Or.inr ⟨p, List.mem_flatten.2 ⟨q, List.mem_flatten.2 ⟨cells, hc, hq⟩, hpq⟩, by rw [← e, ep]⟩

/-- **C90, not met** `EvaluateRecNorm` with `P = 3`: two cells with the value one everywhere give one on one rank and the cube root of two on two: the ranks' maxima are added. -/
theorem rec_norm_three : evalRecNorm 3 [[[((1 : ℝ), (fun _ => 1 : Row 1))], [((1 : ℝ), (fun _ => 1 : Row 1))]]] 0 = 1 ∧
    evalRecNorm 3 [[[((1 : ℝ), (fun _ => 1 : Row 1))]], [[((1 : ℝ), (fun _ => 1 : Row 1))]]] 0 ≠ 1 := by
  have h1 : evalRecNorm 3 [[[((1 : ℝ), (fun _ => 1 : Row 1))], [((1 : ℝ), (fun _ => 1 : Row 1))]]] 0 = 1 := by
    simp [evalRecNorm, allSum]
  refine ⟨h1, ?_⟩
  have h2 : evalRecNorm 3 [[[((1 : ℝ), (fun _ => 1 : Row 1))]], [[((1 : ℝ), (fun _ => 1 : Row 1))]]] 0 = 2 ^ (1 / (3 : ℝ)) := by
    simp [evalRecNorm, allSum]
    norm_num
  rw [h2]
  exact (Real.one_lt_rpow (by norm_num) (by norm_num)).ne'

/-- **C90, not met** `EvaluateNorm` with `P = 2` and `average` divides after the root: a field that is one everywhere, on a mesh of volume four, has the average norm one half, or less. -/
theorem average_after_root : ∃ res, evaluateNorm 2 true true [((⟨[fun _ => 1], []⟩ : Part 1), [4])] 0 = .ok res ∧ res ≤ 1 / 2 := by
  obtain ⟨r, h0, hr, e⟩ := norm_of_mesh (n := 1) (Or.inr rfl) true true [((⟨[fun _ => 1], []⟩ : Part 1), [4])] (by simp) (by simp) 0
  refine ⟨_, e, ?_⟩
  have hr' : r ^ 2 = 4 := by simpa [weighted] using hr
  have : r = 2 := by nlinarith
  subst this
  have he : (0 : ℝ) < (10 : ℝ)⁻¹ ^ 200 := by positivity
  have hw : ((weighted true [((⟨[fun _ => 1], []⟩ : Part 1), [4])]).map (·.2)).sum = 4 := by simp [weighted]
  rw [if_pos rfl, hw, div_le_iff₀ (by linarith)]
  linarith

/-- the hypotheses of `norm_of_mesh`: two ranks, one without cells -/
example : ∃ res : ℝ, 0 ≤ res ∧ res ^ 2 = 36 ∧ evaluateNorm 2 true false [((⟨[fun _ => -3], [fun _ => 9]⟩ : Part 1), [4]), (⟨[], []⟩, [])] 0 = .ok res := by
  obtain ⟨r, h0, hr, e⟩ := norm_of_mesh (n := 1) (Or.inr rfl) true false [((⟨[fun _ => -3], [fun _ => 9]⟩ : Part 1), [4]), (⟨[], []⟩, [])] (by simp) (by simp) 0
  refine ⟨r, h0, ?_, e⟩
  rw [hr]
  norm_num [weighted]

/-- and of `rec_norm_of_mesh` -/
example : evalRecNorm 1 [[[((2 : ℝ), (fun _ => -3 : Row 1))]], []] 0 ^ 1 = 6 := by
  rw [(rec_norm_of_mesh (Or.inl rfl) _ (by simp) 0).2]
  norm_num

end DNDSR.Dof
