import Verif.Props.Positivity
import Mathlib.Data.List.Forall2

/-!
# C83 over all ranks, the variables of two-equation models, and cases
-/

namespace DNDSR.Pos

open DNDSR.Gas DNDSR.IMap

variable {d N : Nat}

/-! ## All ranks -/

theorem forRanks_forall2 {α β : Type} {f : α → Res β} {P : α → β → Prop} : ∀ (l : List α) (r : Nat), (∀ x ∈ l, ∃ y, f x = .ok y ∧ P x y) →
    ∃ ys, forRanks (fun _ x => f x) r l = .ok ys ∧ List.Forall₂ P l ys
  | [], _, _ => ⟨[], rfl, List.Forall₂.nil⟩
  | x :: l, r, h => by
    obtain ⟨y, e, hy⟩ := h x (by simp)
    obtain ⟨ys, es, hs⟩ := forRanks_forall2 l (r + 1) fun z hz => h z (by simp [hz])
    refine ⟨y :: ys, ?_, List.Forall₂.cons hy hs⟩
    rw [forRanks, e, Res.ok_bind, es, Res.ok_bind]

theorem foldl_add : ∀ (l : List Nat) (z : Nat), l.foldl (· + ·) z = z + l.sum
  | [], z => by simp
  | a :: l, z => by rw [List.foldl_cons, foldl_add l, List.sum_cons]; omega

/-- a minimum over a list is below everything in it and is one of it -/
theorem reduceMin_spec : ∀ (l : List ℝ) (z : ℝ), reduceMin z l ≤ z ∧ (∀ a ∈ l, reduceMin z l ≤ a) ∧ (reduceMin z l = z ∨ reduceMin z l ∈ l)
  | [], z => ⟨le_rfl, by simp, Or.inl rfl⟩
  | a :: l, z => by
    obtain ⟨h1, h2, h3⟩ := reduceMin_spec l (min z a)
    have e : reduceMin z (a :: l) = reduceMin (min z a) l := rfl
    rw [e]
    refine ⟨h1.trans (min_le_left _ _), fun b hb => ?_, ?_⟩
    · rcases List.mem_cons.mp hb with rfl | hb
      · exact h1.trans (min_le_right _ _)
      · exact h2 b hb
    · rcases h3 with h | h
      · rcases min_choice z a with hm | hm
        · exact Or.inl (h.trans hm)
        · exact Or.inr (by rw [h, hm]; simp)
      · exact Or.inr (by simp [h])

/-- the least over ranks of the least over their cells -/
theorem reduceMin_ranks {α : Type} (z : ℝ) (f : α → ℝ) (rs : List (List α)) :
    reduceMin z (rs.map fun cs => reduceMin z (cs.map f)) ≤ z ∧
      (∀ cs ∈ rs, ∀ q ∈ cs, reduceMin z (rs.map fun cs => reduceMin z (cs.map f)) ≤ f q) ∧
      (reduceMin z (rs.map fun cs => reduceMin z (cs.map f)) = z ∨ ∃ cs ∈ rs, ∃ q ∈ cs, reduceMin z (rs.map fun cs => reduceMin z (cs.map f)) = f q) := by
  obtain ⟨h1, h2, h3⟩ := reduceMin_spec (rs.map fun cs => reduceMin z (cs.map f)) z
  refine ⟨h1, fun cs hcs q hq => ?_, ?_⟩
  · exact (h2 _ (List.mem_map_of_mem hcs)).trans ((reduceMin_spec (cs.map f) z).2.1 _ (List.mem_map_of_mem hq))
  · rcases h3 with h | h
    · exact Or.inl h
    · obtain ⟨cs, hcs, e⟩ := List.mem_map.mp h
      rcases (reduceMin_spec (cs.map f) z).2.2 with h | h
      · exact Or.inl (by rw [← e, h])
      · obtain ⟨q, hq, e'⟩ := List.mem_map.mp h
        exact Or.inr ⟨cs, hcs, q, hq, by rw [← e, ← e']⟩

/-- means that the limiter takes: at the floors, or just positive if these are relaxed -/
def MeanOk (c : Cfg) (u : St ℝ d) : Prop :=
  if c.relaxed then 0 < u.1 ∧ 0 < internal u else c.rhoEps ≤ u.1 ∧ c.pEps ≤ (c.gamma - 1) * internal u

theorem floors_spec (c : Cfg) (h0 : 0 < c.ref0) (hP : 0 < c.refP) (hg : 1 < c.gamma) (rs : List (List (RecCell d N))) (hm : ∀ cs ∈ rs, ∀ q ∈ cs, MeanOk c q.u.1) :
    0 < (betaFloors c rs).1 ∧ (betaFloors c rs).1 ≤ c.rhoEps ∧ 0 < (betaFloors c rs).2 ∧ (betaFloors c rs).2 ≤ c.pEps ∧
      ∀ cs ∈ rs, ∀ q ∈ cs, (betaFloors c rs).1 ≤ q.u.1.1 ∧ (betaFloors c rs).2 ≤ (c.gamma - 1) * internal q.u.1 ∧
        (c.relaxed = true → (betaFloors c rs).1 ≤ 1 / 2 * q.u.1.1 ∧ (betaFloors c rs).2 ≤ 1 / 2 * ((c.gamma - 1) * internal q.u.1)) := by
  have e0 : 0 < c.rhoEps := by unfold Cfg.rhoEps small; positivity
  have eP : 0 < c.pEps := by unfold Cfg.pEps small; positivity
  unfold betaFloors
  by_cases hr : c.relaxed = true
  · rw [if_pos hr]
    have hm' : ∀ cs ∈ rs, ∀ q ∈ cs, 0 < q.u.1.1 ∧ 0 < internal q.u.1 := by
      intro cs hcs q hq
      have := hm cs hcs q hq
      unfold MeanOk at this
      rwa [if_pos hr] at this
    obtain ⟨-, a2, a3⟩ := reduceMin_ranks (3 * 10 ^ 200) (fun q : RecCell d N => q.u.1.c0) rs
    obtain ⟨-, b2, b3⟩ := reduceMin_ranks (3 * 10 ^ 200) (fun q : RecCell d N => (c.gamma - 1) * eInt q.u.1) rs
    dsimp only
    set rhoMin := reduceMin (3 * 10 ^ 200) (rs.map fun cs => reduceMin (3 * 10 ^ 200) (cs.map fun q => q.u.1.c0))
    set pMin := reduceMin (3 * 10 ^ 200) (rs.map fun cs => reduceMin (3 * 10 ^ 200) (cs.map fun q => (c.gamma - 1) * eInt q.u.1))
    have r0 : 0 < rhoMin := by
      rcases a3 with h | ⟨cs, hcs, q, hq, h⟩
      · rw [h]; positivity
      · rw [h]; exact (hm' cs hcs q hq).1
    have p0 : 0 < pMin := by
      rcases b3 with h | ⟨cs, hcs, q, hq, h⟩
      · rw [h]; positivity
      · rw [h, eInt_eq]; exact mul_pos (by linarith) (hm' cs hcs q hq).2
    refine ⟨lt_min e0 (by linarith), min_le_left _ _, lt_min eP (by linarith), min_le_left _ _, fun cs hcs q hq => ?_⟩
    have h1 : rhoMin ≤ q.u.1.1 := a2 cs hcs q hq
    have h2 := b2 cs hcs q hq
    rw [eInt_eq] at h2
    exact ⟨(min_le_right _ _).trans (by linarith), (min_le_right _ _).trans (by linarith), fun _ => ⟨(min_le_right _ _).trans (by linarith), (min_le_right _ _).trans (by linarith)⟩⟩
  · rw [if_neg hr]
    refine ⟨e0, le_rfl, eP, le_rfl, fun cs hcs q hq => ?_⟩
    have := hm cs hcs q hq
    unfold MeanOk at this
    rw [if_neg hr] at this
    exact ⟨this.1, this.2, fun h => absurd h hr⟩

/-- **C83, all ranks** For any number of ranks, with any cells: the limiter returns on all of them; at every point of every cell density and internal energy are at the floors used, which are positive
and not above those of the settings; with relaxed floors also not above half of any mean. All ranks learn how many cells of all ranks were limited and the least factor (before those below `1e-3` were taken as zero). -/
theorem limited_all (c : Cfg) (hd : d = 2 ∨ d = 3) (hg1 : 1 < c.gamma) (hg2 : c.gamma ≤ 2) (h0 : 0 < c.ref0) (hP : 0 < c.refP) (toMean : Bool)
    (rs : List (List (RecCell d N))) (hm : ∀ cs ∈ rs, ∀ q ∈ cs, MeanOk c q.u.1)
    (ho : ∀ cs ∈ rs, ∀ q ∈ cs, 1 ≤ q.order ∧ q.order ≤ 3 ∧ N + 1 = (q.order + d).choose d)
    (hroom : ∀ cs ∈ rs, ∀ q ∈ cs, ∀ p < q.order, (∀ b ∈ q.pts, Physical (betaFloors c rs).1 (betaFloors c rs).2 (valueAt q.u (cut d p q.x) b).1) →
      ∀ b ∈ q.pts, Room (betaFloors c rs).2 (valueAt q.u (cut d p q.x) b).1) :
    0 < (betaFloors c rs).1 ∧ (betaFloors c rs).1 ≤ c.rhoEps ∧ 0 < (betaFloors c rs).2 ∧ (betaFloors c rs).2 ≤ c.pEps ∧
    (c.relaxed = true → ∀ cs ∈ rs, ∀ q ∈ cs, (betaFloors c rs).1 ≤ 1 / 2 * q.u.1.1 ∧ (betaFloors c rs).2 ≤ 1 / 2 * ((c.gamma - 1) * internal q.u.1)) ∧
    ∃ out nLim betaMin, recBetaAll c toMean rs = .ok (out, nLim, betaMin) ∧
      List.Forall₂ (List.Forall₂ fun (q : RecCell d N) (r : CellBeta d N) => 0 ≤ r.beta ∧ r.beta ≤ 1 ∧
        ∀ b ∈ q.pts, Physical (betaFloors c rs).1 (betaFloors c rs).2 (valueAt q.u r.x b).1) rs out ∧
      nLim = (out.map fun cs => (cs.filter fun r => decide (r.beta < 1)).length).sum ∧
      betaMin ≤ 1 ∧ (∀ cs ∈ out, ∀ r ∈ cs, betaMin ≤ r.beta ∨ r.beta = 0 ∧ betaMin < 1 / 1000) ∧
      (betaMin = 1 ∨ ∃ cs ∈ out, ∃ r ∈ cs, betaMin = r.beta ∨ r.beta = 0 ∧ 0 ≤ betaMin ∧ betaMin < 1 / 1000) := by
  obtain ⟨f1, f2, f3, f4, f5⟩ := floors_spec c h0 hP hg1 rs hm
  refine ⟨f1, f2, f3, f4, fun hr cs hcs q hq => (f5 cs hcs q hq).2.2 hr, ?_⟩
  obtain ⟨out, hout, hall⟩ := forRanks_forall2
    (f := fun cs => forRanks (fun _ (q : RecCell d N) => recBeta c (betaFloors c rs).1 (betaFloors c rs).2 toMean q.u q.order q.pts q.x) 0 cs)
    (P := List.Forall₂ fun (q : RecCell d N) (r : CellBeta d N) => (0 ≤ r.beta ∧ r.beta ≤ 1 ∧
        ∀ b ∈ q.pts, Physical (betaFloors c rs).1 (betaFloors c rs).2 (valueAt q.u r.x b).1) ∧ (r.limited = true ↔ r.beta < 1) ∧
        (r.forMin = r.beta ∨ r.beta = 0 ∧ 0 ≤ r.forMin ∧ r.forMin < 1 / 1000)) rs 0 (by
      intro cs hcs
      exact forRanks_forall2 cs 0 (by
        intro q hq
        obtain ⟨o1, o2, o3⟩ := ho cs hcs q hq
        obtain ⟨r, e, r0, r1, rl, rm, rp, -, -⟩ := limited_positive c hd hg1 hg2 f1 f3.le toMean q.u q.order ⟨o1, o2⟩ o3 q.pts q.x ⟨(f5 cs hcs q hq).1, (f5 cs hcs q hq).2.1⟩ (hroom cs hcs q hq)
        exact ⟨r, e, ⟨r0, r1, rp⟩, rl, rm⟩))
  have hmem : ∀ cs ∈ out, ∀ r ∈ cs, (r.limited = true ↔ r.beta < 1) ∧ (r.forMin = r.beta ∨ r.beta = 0 ∧ 0 ≤ r.forMin ∧ r.forMin < 1 / 1000) := by
    intro cs hcs r hr
    obtain ⟨i, hi, rfl⟩ := List.mem_iff_getElem.mp hcs
    have h1 := hall.get (by rw [hall.length_eq]; exact hi) hi
    obtain ⟨j, hj, rfl⟩ := List.mem_iff_getElem.mp hr
    have h2 := h1.get (by rw [h1.length_eq]; exact hj) hj
    exact h2.2
  refine ⟨out, _, _, by simp only [recBetaAll]; rw [hout, Res.ok_bind], hall.imp fun _ _ h => h.imp fun _ _ h => h.1, ?_, ?_, ?_, ?_⟩
  · rw [reduceSum, foldl_add, Nat.zero_add]
    congr 1
    refine List.map_congr_left fun cs hcs => ?_
    congr 1
    refine List.filter_congr fun r hr => ?_
    have := (hmem cs hcs r hr).1
    by_cases h : r.beta < 1
    · rw [decide_eq_true h, this.mpr h]
    · rw [decide_eq_false h]
      exact Bool.eq_false_iff.mpr fun h' => h (this.mp h')
  · exact (reduceMin_ranks 1 (fun r : CellBeta d N => r.forMin) out).1
  · intro cs hcs r hr
    have h1 := (reduceMin_ranks 1 (fun r : CellBeta d N => r.forMin) out).2.1 cs hcs r hr
    rcases (hmem cs hcs r hr).2 with h | ⟨h, -, h'⟩
    · exact Or.inl (h1.trans h.le)
    · exact Or.inr ⟨h, lt_of_le_of_lt h1 h'⟩
  · rcases (reduceMin_ranks 1 (fun r : CellBeta d N => r.forMin) out).2.2 with h | ⟨cs, hcs, r, hr, h⟩
    · exact Or.inl h
    · refine Or.inr ⟨cs, hcs, r, hr, ?_⟩
      rw [h]
      exact (hmem cs hcs r hr).2

/-! ## Two-equation models -/

/-- **C83, further variables** In a two-equation model, when the limiter goes to the mean: if both further variables of the mean are at least `1e-10` of their reference, at every point of the
result they are at least that, or at least the floor of the density. -/
theorem turbulence_kept (c : Cfg) (hk : c.kind = .twoEq) (hd : d = 2 ∨ d = 3) (hg1 : 1 < c.gamma) (hg2 : c.gamma ≤ 2) {rhoEps pEps : ℝ} (hr : 0 < rhoEps) (hp : 0 ≤ pEps)
    (u : TU d) (order : Nat) (pts : List (Fin N → ℝ)) (x : Fin N → TU d)
    (hu : rhoEps ≤ u.1.1 ∧ pEps ≤ (c.gamma - 1) * internal u.1) (hroom : Room pEps u.1)
    (h1 : 1 / 10 ^ 10 * c.ref1 ≤ u.2.1) (h2 : 1 / 10 ^ 10 * c.ref2 ≤ u.2.2) :
    ∃ r, recBeta c rhoEps pEps true u order pts x = .ok r ∧ ∀ b ∈ pts,
      min rhoEps (1 / 10 ^ 10 * c.ref1) ≤ (valueAt u r.x b).2.1 ∧ min rhoEps (1 / 10 ^ 10 * c.ref2) ≤ (valueAt u r.x b).2.2 := by
  have hmean : ∀ b : Fin N → ℝ, valueAt u (cut d 0 x) b = u := by
    intro b
    rw [cut_zero, valueAt]
    simp
  have hpE : pEps ≤ internal u.1 := by
    rcases le_total 0 (internal u.1) with h | h <;> nlinarith [hu.2]
  simp only [recBeta]
  rw [Res.assert_true (u.1.c0 ≥ rhoEps) hu.1, Res.ok_bind, eInt_eq, Res.assert_true _ hu.2, Res.ok_bind]
  by_cases hgood : good c.kind rhoEps pEps u pts x
  · rw [if_pos hgood]
    refine ⟨_, rfl, fun b hb => ?_⟩
    obtain ⟨-, -, h3, -⟩ := hgood b hb
    have h3 := h3 hk
    rw [val_eq] at h3
    push Not at h3
    exact ⟨(min_le_left _ _).trans h3.1, (min_le_left _ _).trans h3.2⟩
  · rw [if_neg hgood]
    obtain ⟨s, hs, hcase⟩ := lower_spec hd c.kind rhoEps pEps u pts 1 (by omega) x x
    have e2 : s.2 = cut d 0 x := by
      rcases hcase with ⟨p, hp', -, h, -, -⟩ | ⟨-, h, -⟩ | ⟨h, -⟩
      · rw [h, show p = 0 by omega]
      · rw [h]
      · omega
    rw [show (if True then 1 else order) = 1 from if_pos trivial, hs, Res.ok_bind]
    obtain ⟨r, hr1, r0, r1, -, -, -, -, rx⟩ := compressTo_spec c hg1 (by linarith) hr hp u pts s.1 s.2 (pCent := (c.gamma - 1) * internal u.1)
      (by intro b _; rw [e2, hmean]; exact ⟨hu.1, hpE⟩) (Or.inl (by intro b _; rw [e2, hmean]; exact hroom))
    refine ⟨r, hr1, ?_⟩
    rw [e2] at rx
    simp only [cut_zero, sub_zero, zero_add] at rx
    set inc := fun b : Fin N → ℝ => ∑ j, b j • s.1 j with hinc
    have hv0 : ∀ b : Fin N → ℝ, val u (fun _ : Fin N => (0 : TU d)) b = u := by
      intro b
      simp [val]
    simp only [scaleTwoEq, hv0] at rx
    have sm : small = 1 / 10 ^ 10 := rfl
    obtain ⟨p0, pall⟩ := roomIf_spec (eps := small * c.ref1) (theta := 1) (pts.map fun b => (u.2.1, (inc b).2.1)) zero_le_one le_rfl (by
      intro q hq
      obtain ⟨b, -, rfl⟩ := List.mem_map.mp hq
      exact h1)
    have p1 := roomIf_le (eps := small * c.ref1) (theta := 1) (pts.map fun b => (u.2.1, (inc b).2.1))
    obtain ⟨q0, qall⟩ := roomIf_spec (eps := small * c.ref2) (pts.map fun b => (u.2.2, (inc b).2.2)) p0 p1 (by
      intro q hq
      obtain ⟨b, -, rfl⟩ := List.mem_map.mp hq
      exact h2)
    have q1 := roomIf_le (eps := small * c.ref2) (theta := roomIf (small * c.ref1) 1 (pts.map fun b => (u.2.1, (inc b).2.1))) (pts.map fun b => (u.2.2, (inc b).2.2))
    set thC := roomIf (small * c.ref2) (roomIf (small * c.ref1) 1 (pts.map fun b => (u.2.1, (inc b).2.1))) (pts.map fun b => (u.2.2, (inc b).2.2)) with hthC
    have main : ∃ k : ℝ, 0 ≤ k ∧ k ≤ thC ∧ ∀ j, (r.x j).2 = k • (s.1 j).2 := by
      by_cases ht : thC < 1
      · refine ⟨r.beta * (thC * (9 / 10)), mul_nonneg r0 (by linarith), by nlinarith, fun j => ?_⟩
        rw [rx j, if_pos ⟨hk, ht⟩]
        ext
        · show r.beta * ((s.1 j).2.1 * (thC * (9 / 10))) = r.beta * (thC * (9 / 10)) * (s.1 j).2.1
          ring
        · show r.beta * ((s.1 j).2.2 * (thC * (9 / 10))) = r.beta * (thC * (9 / 10)) * (s.1 j).2.2
          ring
      · refine ⟨r.beta, r0, r1.trans (not_lt.mp ht), fun j => ?_⟩
        rw [rx j, if_neg fun h => ht h.2]
        rfl
    obtain ⟨k, k0, k1, hk'⟩ := main
    intro b hb
    have ev : (valueAt u r.x b).2 = u.2 + k • (inc b).2 := by
      simp only [valueAt, hinc, Prod.snd_add, Prod.snd_sum, Prod.smul_snd, hk', Finset.smul_sum]
      congr 1
      exact Finset.sum_congr rfl fun j _ => smul_comm _ _ _
    have a1 := pall _ (List.mem_map_of_mem hb) k k0 (k1.trans q1)
    have a2 := qall _ (List.mem_map_of_mem hb) k k0 k1
    rw [ev]
    exact ⟨(min_le_right _ _).trans a1, (min_le_right _ _).trans a2⟩

/-! ## Cases -/

/-- settings with reference 1 -/
noncomputable def demoCfg (kind : Kind) : Cfg := ⟨kind, 1, 1, 1, 1, 7 / 5, false, 11, 1, none⟩

/-- a gas at rest -/
def restU : TU 2 := ((1, 0, 1), 1, 1)

theorem rest_internal : internal restU.1 = 1 := by simp [internal, restU]

theorem rest_room {f : ℝ} (hf : f ≤ 1 / 2) : Room f restU.1 := by
  have h2 : internalG (1 / 10 ^ 200) restU.1 = 1 := by simp [internalG, restU]
  unfold Room
  rw [rest_internal, h2]
  have : max (1 / 10 ^ 10 * 1 : ℝ) f ≤ 1 / 2 := max_le (by norm_num) hf
  have h3 : (1 : ℝ) / 10 ^ 150 ≤ 1 := by
    rw [div_le_one (by positivity)]
    exact one_le_pow₀ (by norm_num)
  have : restU.1.1 = 1 := rfl
  nlinarith

/-- a slope that makes the density negative on one side -/
def steep : Fin 2 → TU 2 := ![((2, 0, 0), 0, 0), 0]

/-- `limited_positive` on a slope that is too steep: the hypotheses hold, and something is limited -/
example : ∃ r, recBeta (demoCfg .plain) (1 / 10 ^ 11) (1 / 10 ^ 11) false restU 1 [![1, 0], ![-1, 0]] steep = .ok r ∧ r.limited = true ∧
    ∀ b ∈ [![1, 0], ![-1, 0]], Physical (1 / 10 ^ 11) (1 / 10 ^ 11) (valueAt restU r.x b).1 := by
  obtain ⟨r, e, r0, r1, rl, -, rp, -, t, t0, t1, h⟩ := limited_positive (demoCfg .plain) (Or.inl rfl) (by norm_num [demoCfg]) (by norm_num [demoCfg])
    (rhoEps := 1 / 10 ^ 11) (pEps := 1 / 10 ^ 11) (by positivity) (by positivity) false restU 1 (by omega) (by decide) [![1, 0], ![-1, 0]] steep
    (by rw [rest_internal]; norm_num [demoCfg, restU])
    (by
      intro p hp _ b _
      rw [show p = 0 by omega, cut_zero]
      simp only [valueAt, smul_zero, Finset.sum_const_zero, add_zero]
      exact rest_room (by norm_num))
  refine ⟨r, e, ?_, rp⟩
  rw [rl]
  rcases h with ⟨h, -⟩ | ⟨-, p, hp, hb, -, ht⟩
  · exact absurd h (by decide)
  · by_contra hc
    have hb1 : r.beta = 1 := le_antisymm r1 (not_lt.mp hc)
    have hp0 : p = 0 := by omega
    subst hp0
    have h0 := (rp ![-1, 0] (by simp)).1
    have e0 : ∀ j, (r.x j).1 = t • (steep j).1 := by
      intro j
      have := hb j
      rw [cut_zero, cut_all 2 1 (by decide), zero_add, sub_zero] at this
      exact this
    have hden : (valueAt restU r.x ![-1, 0]).1.1 = 1 - 2 * t := by
      simp only [valueAt, Fin.sum_univ_two, Prod.fst_add, Prod.smul_fst, e0]
      simp [restU, steep]
      ring
    rw [hden] at h0
    rcases ht with ht | ⟨-, -, hn⟩
    · rw [ht, hb1] at h0
      norm_num at h0
    · refine hn fun b _ => ⟨?_, by simp [demoCfg], by simp [demoCfg]⟩
      rw [cut_zero]
      simp only [valueAt, smul_zero, Finset.sum_const_zero, add_zero]
      refine ⟨by norm_num [restU], ?_⟩
      rw [rest_internal]
      norm_num

/-- `turbulence_kept` on the same slope of a further variable -/
example : ∃ r, recBeta (demoCfg .twoEq) (1 / 10 ^ 11) (1 / 10 ^ 11) true restU 1 [![1, 0], ![-1, 0]] ![((0, 0, 0), 2, 0), 0] = .ok r ∧
    ∀ b ∈ [![1, 0], ![-1, 0]], 1 / 10 ^ 11 ≤ (valueAt restU r.x b).2.1 := by
  obtain ⟨r, e, h⟩ := turbulence_kept (demoCfg .twoEq) rfl (Or.inl rfl) (by norm_num [demoCfg]) (by norm_num [demoCfg]) (rhoEps := 1 / 10 ^ 11) (pEps := 1 / 10 ^ 11)
    (by positivity) (by positivity) restU 1 [![1, 0], ![-1, 0]] ![((0, 0, 0), 2, 0), 0] (by rw [rest_internal]; norm_num [demoCfg, restU]) (rest_room (by norm_num))
    (by norm_num [demoCfg, restU]) (by norm_num [demoCfg, restU])
  exact ⟨r, e, fun b hb => le_trans (by norm_num [demoCfg]) (h b hb).1⟩

/-- **A shortcoming**: in a two-equation model, when the limiter goes to a lower degree instead of the mean, a further variable can come out negative at a point, because all of its
reconstruction is scaled by what is right for the part above the lower degree. Here the mean is 1, the slope adds 2 and the second degree takes 30. -/
theorem turbulence_not_kept : ∃ (x : Fin 5 → TU 2) (b : Fin 5 → ℝ) (r : CellBeta 2 5), recBeta (demoCfg .twoEq) (1 / 10 ^ 11) (1 / 10 ^ 11) false restU 2 [b] x = .ok r ∧
    Fine .twoEq (1 / 10 ^ 11) (1 / 10 ^ 11) restU [b] (cut 2 1 x) ∧ (valueAt restU r.x b).2.1 < 0 := by
  let x : Fin 5 → TU 2 := ![((0, 0, 0), 2, 0), 0, ((0, 0, 0), -30, 0), 0, 0]
  let b : Fin 5 → ℝ := ![1, 0, 1, 0, 0]
  have hv := verySmall_pos
  have hcut : cut 2 1 x = ![((0, 0, 0), 2, 0), 0, 0, 0, 0] := by
    funext j
    match j with
    | 0 => rfl
    | 1 => rfl
    | 2 => rfl
    | 3 => rfl
    | 4 => rfl
  have hbase : val restU (cut 2 1 x) b = ((1, 0, 1), 3, 1) := by
    rw [hcut]
    simp [val, b, restU, Fin.sum_univ_five]
    norm_num
  have hx : val restU x b = ((1, 0, 1), -27, 1) := by
    simp [val, b, x, restU, Fin.sum_univ_five]
    norm_num
  have hinc : ∑ j, b j • (x j - cut 2 1 x j) = ((0, 0, 0), -30, 0) := by
    rw [hcut]
    simp [b, x, Fin.sum_univ_five]
  have hE : eInt ((1, 0, 1) : St ℝ 2) = 1 := by simp [eInt, St.c0, St.cv, St.c4]
  have hg : good .twoEq (1 / 10 ^ 11) (1 / 10 ^ 11) restU [b] (cut 2 1 x) := by
    intro b' hb'
    rw [List.mem_singleton.mp hb', hbase]
    refine ⟨by norm_num [St.c0], by simp, fun _ => by norm_num, ?_⟩
    rw [hE]
    norm_num
  have hng : ¬ good .twoEq (1 / 10 ^ 11) (1 / 10 ^ 11) restU [b] x := by
    intro h
    have := (h b (by simp)).2.2.1 rfl
    rw [hx] at this
    norm_num at this
  have hlow : lower .twoEq (1 / 10 ^ 11) (1 / 10 ^ 11) restU [b] 2 x x = .ok (x, cut 2 1 x) := by
    simp only [lower]
    rw [downCast_eq (Or.inl rfl) (by omega), Res.ok_bind, if_pos hg]
  have ht1 : roomIf (1 / 10 ^ 11) 1 [(1, 0)] = 1 := by
    unfold roomIf
    rw [if_neg]
    simp
    norm_num
  set th := roomIf (small * 1) 1 [((3 : ℝ), (-30 : ℝ))] with hth
  have hth' : th = min 1 ((3 - small * 1) / (-(-30) + verySmall)) := by
    rw [hth, roomIf, if_pos (by simp [small]; norm_num)]
    simp [room]
  have hv1 : verySmall ≤ 1 := by
    unfold verySmall
    rw [div_le_one (by positivity)]
    exact one_le_pow₀ (by norm_num)
  have hthlo : 9 / 100 ≤ th := by
    rw [hth']
    refine le_min (by norm_num) ?_
    rw [le_div_iff₀ (by linarith)]
    unfold small
    linarith
  have hthhi : th < 1 := by
    rw [hth']
    refine lt_of_le_of_lt (min_le_right _ _) ?_
    rw [div_lt_one (by linarith)]
    unfold small
    linarith
  have ht2 : roomIf (small * 1) th [((1 : ℝ), (0 : ℝ))] = th := by
    unfold roomIf
    rw [if_neg]
    simp [small]
    norm_num
  have hscale : scaleTwoEq (demoCfg .twoEq) restU [b] x (cut 2 1 x) (fun b => ∑ j, b j • (x j - cut 2 1 x j)) =
      fun j => ((x j).1, (x j).2.1 * (th * (9 / 10)), (x j).2.2 * (th * (9 / 10))) := by
    simp only [scaleTwoEq, List.map_cons, List.map_nil, hbase, hinc]
    rw [show (demoCfg .twoEq).ref1 = 1 from rfl, show (demoCfg .twoEq).ref2 = 1 from rfl, ← hth, ht2, if_pos ⟨rfl, hthhi⟩]
  have hP : thetaP (demoCfg .twoEq).gamma (1 / 10 ^ 11) ((demoCfg .twoEq).gamma - 1) [(((1, 0, 1) : St ℝ 2), (1 : ℝ) • ((0, 0, 0) : St ℝ 2))] = .ok 1 := by
    unfold thetaP
    rw [if_neg (by norm_num [demoCfg])]
    simp only [thetaLoop]
    rw [if_neg]
    have : (1 : ℝ) • ((0, 0, 0) : St ℝ 2) + (1, 0, 1) = (1, 0, 1) := by simp
    rw [this, hE]
    norm_num [demoCfg]
  set y : Fin 5 → TU 2 := fun j => ((x j).1, (x j).2.1 * (th * (9 / 10)), (x j).2.2 * (th * (9 / 10))) with hy
  have hyv : val restU y b = ((1, 0, 1), 1 - 28 * (th * (9 / 10)), 1) := by
    simp [val, b, x, y, restU, Fin.sum_univ_five]
    ring
  refine ⟨x, b, ⟨y, 1, false, 1⟩, ?_, good_iff.mp hg, ?_⟩
  · have hu : eInt restU.1 = 1 := hE
    simp only [recBeta]
    rw [Res.assert_true (restU.1.c0 ≥ 1 / 10 ^ 11) (by norm_num [restU, St.c0]), Res.ok_bind, hu, mul_one,
      Res.assert_true _ (by norm_num [demoCfg]), Res.ok_bind, show (demoCfg .twoEq).kind = .twoEq from rfl, if_neg hng]
    simp only [Bool.false_eq_true, if_false]
    rw [hlow, Res.ok_bind]
    simp only [compressTo, List.map_cons, List.map_nil, hbase, hinc, hscale]
    rw [show roomIf (1 / 10 ^ 11) 1 [(St.c0 ((1, 0, 1) : St ℝ 2), St.c0 ((0, 0, 0) : St ℝ 2))] = 1 from ht1, hP, Res.ok_bind, mul_one]
    simp only [useBeta, betaOf, lt_self_iff_false, if_false, not_lt.mpr (zero_le_one (α := ℝ)), decide_false]
    rw [Res.assert_true _ (by
      intro b' hb'
      rw [List.mem_singleton.mp hb', hyv, hE]
      norm_num), Res.ok_bind]
  · show (valueAt restU y b).2.1 < 0
    rw [← val_eq, hyv]
    show 1 - 28 * (th * (9 / 10)) < 0
    linarith

end DNDSR.Pos
