import Verif.Proof.SmoothDt
import Verif.Props.TimeStepDemo

/-!
# Smoothed time steps (C91)
-/

namespace DNDSR.Dt

open DNDSR.Elem DNDSR.IMap DNDSR.MeshAdj
open DNDSR.Faces hiding rename
open DNDSR.Gas (St Physical)
open DNDSR.Flux (nSides firstSide Frame OwnValues isSlot_of lt_of_isSlot)
open DNDSR.Sweep (Mates own_index system_exists is_own_add nOwn_le)
open Matrix

variable {per : Bool} {G : List Cell} {F : Nat → Nat → Int} {E : Int → Nat × Nat} {mate : Nat → Nat → Option Nat}
variable {d : Nat} {cl nl : List Nat} {gc : GOM} {ranks : List RankIn} {outs : List RankOut} {rs : List (Rk d)} {P : Prob d} {c : Conf}
  {M : Int → Matrix (Fin d) (Fin d) ℝ}

/-- **C91, partitions** Any number of passes returns on every rank and gives every cell the step that as many passes over the whole mesh give, whatever the ranks and whatever their copies held. -/
theorem smooth_of_mesh (hD : Distributed per cl nl G gc ranks) (hN : Numbered per cl nl G ranks outs F) (hE : Orient per cl G ranks outs F E) (hM : Mates per G F mate)
    (k : Nat) {dts : List (List ℝ)} {t : Nat → ℝ} (ho : OwnValues cl dts t)
    (hl : ∀ (r : Nat) (x : RankIn) (dt : List ℝ), ranks[r]? = some x → dts[r]? = some dt → dt.length = x.cells.length) :
    ∃ res, smoothLoop gc ranks outs k dts = .ok res ∧ OwnValues cl res ((smoothStep G mate)^[k] t) := by
  obtain ⟨res, e, h⟩ := loop_spec hD hN hE hM k (dts := dts) (t := t) ⟨by rw [ho.1, hD.nranks], hl, ho.2⟩
  exact ⟨res, e, by rw [h.size, hD.nranks], h.own⟩

/-- the cells of the mesh: every cell behind a face of one of them is one of them -/
theorem across_lt (hM : Mates per G F mate) {i j : Nat} (hi : i < G.length) (hj : j < nSides G i) : across mate i j < G.length := by
  unfold across
  cases h : mate i j with
  | none => exact hi
  | some i' =>
    obtain ⟨a, ha⟩ := isSlot_of (per := per) hj
    obtain ⟨j', b, hb, _, _⟩ := (hM i j a ha i').1 h
    obtain ⟨C, hC, _⟩ := hb
    exact (List.getElem?_eq_some_iff.1 hC).1

/-- **C91, one cell** The new step of a cell is at most the old one and at most the mean over its inner faces of the steps on the two sides, and it is one of the two; it is at least the least step among the cell
and the cells behind its faces. -/
theorem smooth_cell (t : Nat → ℝ) (i : Nat) :
    smoothStep G mate t i ≤ t i ∧ (inner G mate i ≠ ∅ → smoothStep G mate t i ≤ faceMean G mate t i) ∧
      (smoothStep G mate t i = t i ∨ inner G mate i ≠ ∅ ∧ smoothStep G mate t i = faceMean G mate t i) ∧
      ∀ a, a ≤ t i → (∀ j ∈ inner G mate i, a ≤ t (across mate i j)) → a ≤ smoothStep G mate t i := by
  unfold smoothStep
  by_cases h : inner G mate i = ∅
  · rw [if_pos h]
    exact ⟨le_rfl, fun h' => absurd h h', Or.inl rfl, fun a ha _ => ha⟩
  · rw [if_neg h]
    refine ⟨min_le_left _ _, fun _ => min_le_right _ _, ?_, ?_⟩
    · rcases min_choice (t i) (faceMean G mate t i) with h' | h'
      · exact Or.inl h'
      · exact Or.inr ⟨h, h'⟩
    · intro a ha hn
      refine le_min ha ?_
      have hc : (0 : ℝ) < (inner G mate i).card := by
        have := Finset.card_pos.2 (Finset.nonempty_iff_ne_empty.2 h)
        exact_mod_cast this
      rw [faceMean, le_div_iff₀ hc]
      calc a * (inner G mate i).card = ∑ j ∈ inner G mate i, a := by rw [Finset.sum_const, nsmul_eq_mul, mul_comm]
        _ ≤ _ := Finset.sum_le_sum fun j hj => by have := hn j hj; linarith

/-- **C91, all cells** After any number of passes every step is at most what it was, at most what fewer passes give, and none is less than the least one of the mesh at the start, which is still the least one. -/
theorem smooth_all (hM : Mates per G F mate) (t : Nat → ℝ) (k : Nat) :
    (∀ i, (smoothStep G mate)^[k + 1] t i ≤ (smoothStep G mate)^[k] t i) ∧ (∀ i, (smoothStep G mate)^[k] t i ≤ t i) ∧
      ∀ m, IsLeast {v | ∃ i < G.length, v = t i} m → IsLeast {v | ∃ i < G.length, v = (smoothStep G mate)^[k] t i} m := by
  have hdec : ∀ k i, (smoothStep G mate)^[k + 1] t i ≤ (smoothStep G mate)^[k] t i := by
    intro k i
    rw [Function.iterate_succ_apply']
    exact (smooth_cell _ i).1
  have hle : ∀ k i, (smoothStep G mate)^[k] t i ≤ t i := by
    intro k
    induction k with
    | zero => exact fun i => le_rfl
    | succ k ih => exact fun i => (hdec k i).trans (ih i)
  refine ⟨hdec k, hle k, fun m hm => ?_⟩
  have hlow : ∀ k, ∀ i < G.length, m ≤ (smoothStep G mate)^[k] t i := by
    intro k
    induction k with
    | zero => exact fun i hi => hm.2 ⟨i, hi, rfl⟩
    | succ k ih =>
      intro i hi
      rw [Function.iterate_succ_apply']
      refine (smooth_cell _ i).2.2.2 m (ih i hi) fun j hj => ih _ (across_lt hM hi ?_)
      exact Finset.mem_range.1 (Finset.mem_filter.1 hj).1
  refine ⟨?_, ?_⟩
  · obtain ⟨i, hi, e⟩ := hm.1
    exact ⟨i, hi, le_antisymm (hlow k i hi) (e ▸ hle k i)⟩
  · rintro v ⟨i, hi, rfl⟩
    exact hlow k i hi

/-- **C91, rest** A pass leaves all steps as they are exactly if no cell has a longer step than the cells behind its faces have on average. -/
theorem smooth_fixed (t : Nat → ℝ) : (∀ i < G.length, smoothStep G mate t i = t i) ↔
    ∀ i < G.length, t i * (inner G mate i).card ≤ ∑ j ∈ inner G mate i, t (across mate i j) := by
  have hone : ∀ i, smoothStep G mate t i = t i ↔ t i * (inner G mate i).card ≤ ∑ j ∈ inner G mate i, t (across mate i j) := by
    intro i
    unfold smoothStep
    by_cases h : inner G mate i = ∅
    · rw [if_pos h, h]; simp
    · have hc : (0 : ℝ) < (inner G mate i).card := by
        have := Finset.card_pos.2 (Finset.nonempty_iff_ne_empty.2 h)
        exact_mod_cast this
      rw [if_neg h, min_eq_left_iff, faceMean, le_div_iff₀ hc, ← Finset.sum_div, Finset.sum_add_distrib, Finset.sum_const, nsmul_eq_mul]
      constructor <;> intro h' <;> linarith
  exact ⟨fun h i hi => (hone i).1 (h i hi), fun h i hi => (hone i).2 (h i hi)⟩

theorem iterate_const (m : ℝ) (k : Nat) : (smoothStep G mate)^[k] (fun _ => m) = fun _ => m := by
  induction k with
  | zero => rfl
  | succ k ih =>
    rw [Function.iterate_succ_apply', ih]
    funext i
    obtain ⟨h1, _, _, h4⟩ := smooth_cell (G := G) (mate := mate) (fun _ => m) i
    exact le_antisymm h1 (h4 m le_rfl fun _ _ => le_rfl)

/-- **C91** The pseudo time steps a solver works with, from the states to the end: the call returns on every rank and gives every cell the smoothed step of the whole mesh divided by the diagonal coefficient
of the time integrator.  None is longer than the step `EvaluateDt` allows, and the least one of the mesh is the one `EvaluateDt` reports. -/
theorem pseudo_steps (hO : OnMesh cl nl gc ranks outs rs P) (hg : 1 < c.gamma) (hR : Rotates P.fr M) (hU : ∀ i < P.G.length, Physical c.gamma (P.U i))
    (hmax : c.maxDt ≤ veryLarge) (k : Nat) {α : ℝ} (hα : 0 < α) :
    ∃ res T m, fdtau c P.fr gc ranks outs rs k α = .ok res ∧ OwnValues cl res (fun i => T i / α) ∧ (∀ i < P.G.length, T i ≤ P.step c i) ∧
      (P.G ≠ [] → IsLeast {v | ∃ i < P.G.length, v = P.step c i} m ∧ IsLeast {v | ∃ i < P.G.length, v = T i} m) ∧
      (c.useLocal = true → T = (smoothStep P.G P.mate)^[k] (P.step c)) ∧ (c.useLocal = false → ∀ i, T i = m) := by
  obtain ⟨out, m, e, hlen, _, hloc, hglob, hmin⟩ := steps_of_mesh hO hg hR hU
  have hscale : ∀ {res : List (List ℝ)} {T : Nat → ℝ}, OwnValues cl res T → OwnValues cl (res.map fun t => t.map fun v => v * (1 / α)) fun i => T i / α := by
    rintro res T ⟨h1, h2⟩
    refine ⟨by rw [List.length_map, h1], fun r i row hoi hr => ?_⟩
    rw [List.getElem?_map] at hr
    cases h : res[r]? with
    | none => rw [h] at hr; cases hr
    | some t =>
      rw [h] at hr
      cases hr
      rw [List.getElem?_map, h2 r i t hoi h]
      simp [div_eq_mul_inv]
  have hrank : ∀ {r : Nat} {dt : List ℝ}, (out.map (·.2))[r]? = some dt → ∃ p, out[r]? = some p ∧ dt = p.2 := by
    intro r dt h
    rw [List.getElem?_map] at h
    cases hp : out[r]? with
    | none => rw [hp] at h; cases h
    | some p => rw [hp] at h; cases h; exact ⟨p, rfl, rfl⟩
  by_cases hb : c.useLocal = true
  · obtain ⟨hown, hdrop⟩ := hloc hb
    have hlens : ∀ (r : Nat) (x : RankIn) (dt : List ℝ), ranks[r]? = some x → (out.map (·.2))[r]? = some dt → dt.length = x.cells.length := by
      intro r x dt hx hdt
      have hH := hO.dist.holds r x hx
      have hr : r < rs.length := by rw [hO.size]; exact (List.getElem?_eq_some_iff.1 hx).1
      obtain ⟨p, hp, rfl⟩ := hrank hdt
      have hd := congrArg List.length (hdrop r x _ p hx (List.getElem?_eq_getElem hr) hp)
      rw [List.length_drop, List.length_drop, hO.lens r x _ hx (List.getElem?_eq_getElem hr)] at hd
      have hge : x.nOwn ≤ p.2.length := by
        rcases Nat.eq_zero_or_pos x.nOwn with h0 | h0
        · omega
        · obtain ⟨_, hoi⟩ := is_own_add hH (l := x.nOwn - 1) (by omega)
          have := hown.2 r _ _ hoi hdt
          have := (List.getElem?_eq_some_iff.1 this).1
          have e' : (((before cl r + (x.nOwn - 1) : Nat) : Int) - before cl r).toNat = x.nOwn - 1 := by omega
          rw [e'] at this
          omega
      have := nOwn_le hH
      omega
    obtain ⟨res, e2, h2⟩ := smooth_of_mesh hO.dist hO.num hO.orient hO.mates k hown hlens
    obtain ⟨_, s2, s3⟩ := smooth_all hO.mates (P.step c) k
    refine ⟨_, _, m, by rw [fdtau, e, Res.ok_bind, e2, Res.ok_bind], hscale h2, fun i _ => s2 i, fun hne => ⟨hmin hne hmax, s3 m (hmin hne hmax)⟩, fun _ => rfl, fun h => ?_⟩
    rw [hb] at h; cases h
  · have hb : c.useLocal = false := by simpa using hb
    have hrep := hglob hb
    have hown : OwnValues cl (out.map (·.2)) fun _ => m := by
      refine ⟨by rw [List.length_map, hlen], fun r i row hoi hrow => ?_⟩
      obtain ⟨p, hp, rfl⟩ := hrank hrow
      have hx := List.getElem?_eq_getElem (by rw [hO.dist.nranks]; exact hoi.1 : r < ranks.length)
      have hH := hO.dist.holds r _ hx
      rw [hrep r _ p hx hp, List.getElem?_replicate, if_pos]
      have := (own_index hH hoi).2
      have := nOwn_le hH
      omega
    have hlens : ∀ (r : Nat) (x : RankIn) (dt : List ℝ), ranks[r]? = some x → (out.map (·.2))[r]? = some dt → dt.length = x.cells.length := by
      intro r x dt hx hdt
      obtain ⟨p, hp, rfl⟩ := hrank hdt
      rw [hrep r x p hx hp, List.length_replicate]
    obtain ⟨res, e2, h2⟩ := smooth_of_mesh hO.dist hO.num hO.orient hO.mates k hown hlens
    rw [iterate_const] at h2
    refine ⟨_, _, m, by rw [fdtau, e, Res.ok_bind, e2, Res.ok_bind], hscale h2, fun i hi => (hmin (by rintro h; rw [h] at hi; exact absurd hi (by simp)) hmax).2 ⟨i, hi, rfl⟩,
      fun hne => ⟨hmin hne hmax, ?_⟩, fun h => ?_, fun _ _ => rfl⟩
    · refine ⟨⟨0, List.length_pos_iff.2 hne, rfl⟩, ?_⟩
      rintro v ⟨i, _, rfl⟩
      exact le_rfl
    · rw [hb] at h; cases h

/-- Two squares with different states on two ranks, two passes: what `pseudo_steps` asks for, with positive steps. -/
example (srt : Sorter) (hs : Sorts srt) : ∃ gc ranks outs rs, ∃ P : Prob 2, ∃ c res, ∃ T : Nat → ℝ, ∃ m,
    interpolate false srt gc ranks = .ok outs ∧ OnMesh [1, 1] [4, 2] gc ranks outs rs P ∧ P.U 0 ≠ P.U 1 ∧ c.useLocal = true ∧
    fdtau c P.fr gc ranks outs rs 2 (1 / 2) = .ok res ∧ OwnValues [1, 1] res (fun i => T i / (1 / 2)) ∧ 0 < m ∧ IsLeast {v | ∃ i < P.G.length, v = T i} m := by
  obtain ⟨gc, ranks, hD, _⟩ := TwoQuads.exists_ranks false
  obtain ⟨outs, _, hI, _⟩ := faces_global false srt hs _ _ _ gc ranks hD
  obtain ⟨F, E, mate, hN, hE, hMt⟩ := system_exists hs hD hI
  let U : Nat → St ℝ 2 := fun i => if i = 0 then still 1 2 else still 3 1
  let P := squares F E mate U
  let c : Conf := ⟨7 / 5, 1, 1 / 2, 1, true⟩
  have hg : 1 < c.gamma := by norm_num [c]
  obtain ⟨rs, hO⟩ := onmesh_exists (P := P) hD hN hE hMt
  have hM := squares_rotates F E mate U
  have hU : ∀ i < P.G.length, Physical c.gamma (P.U i) := by
    intro i _
    simp only [P, squares, U]
    split
    · exact still_physical (by norm_num) (by norm_num)
    · exact still_physical (by norm_num) (by norm_num)
  obtain ⟨res, T, m, h1, h2, h3, h4, _, _⟩ := pseudo_steps hO hg hM hU (by simp only [c, veryLarge]; norm_num) 2 (α := 1 / 2) (by norm_num)
  obtain ⟨hm, hT⟩ := h4 (by simp [P, squares, TwoQuads.mesh])
  refine ⟨gc, ranks, outs, rs, P, c, res, T, m, hI, hO, ?_, rfl, h1, h2, ?_, hT⟩
  · intro h
    have := congrArg Prod.fst h
    simp [P, squares, U, still] at this
  · obtain ⟨i, hi, e⟩ := hm.1
    rw [e]
    exact (step_bounds hg hM hO hU (by norm_num [c]) (by norm_num [c]) (fun _ _ => one_pos) (fun _ _ => one_pos) (fun q _ => ⟨zero_le_one, fun _ _ => le_rfl⟩) hi).1

/-- `smooth_all` and `smooth_cell`: two neighbours with steps 1 and 3; the longer one becomes 2, then 3/2 -/
example (G : List Cell) (mate : Nat → Nat → Option Nat) (h0 : inner G mate 0 = {0}) (h1 : inner G mate 1 = {0}) (m0 : mate 0 0 = some 1) (m1 : mate 1 0 = some 0) :
    (smoothStep G mate)^[2] (fun i => if i = 0 then 1 else 3) 1 = 3 / 2 := by
  simp only [Function.iterate_succ, Function.iterate_zero, Function.comp, id]
  norm_num [smoothStep, faceMean, h0, h1, across, m0, m1]

end DNDSR.Dt
