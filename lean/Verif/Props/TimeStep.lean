import Verif.Proof.TimeStepPos
import Verif.Props.FluxSum

/-!
# Time steps (C86)

`EvaluateDt` gives every cell of every rank the step of the mesh, all ranks the smallest one, and with that step a first-order
explicit step keeps densities and pressures positive.
-/

namespace DNDSR.Dt

open DNDSR.Elem DNDSR.IMap DNDSR.MeshAdj DNDSR.Faces
open DNDSR.Gas (St St.c0 St.cv St.c4 side Physical primOf physFlux)
open DNDSR.Flux (nSides firstSide Frame OwnValues Agree balance serialAll gatherAll isSlot_of)
open DNDSR.Sweep (Mates own_index)
open Matrix

variable {d : Nat} {cl nl : List Nat} {gc : GOM} {ranks : List RankIn} {outs : List RankOut} {rs : List (Rk d)} {P : Prob d} {c : Conf}
  {M : Int → Matrix (Fin d) (Fin d) ℝ}

/-- `EvaluateDt` returns on every rank.  Every rank has the speeds of the faces it holds.  With local steps every own cell has its
step and ghosts are left alone; otherwise all cells, ghosts too, have the smallest step of the whole mesh, and in both cases
`dtMinall` is that smallest step. -/
theorem steps_of_mesh (hO : OnMesh cl nl gc ranks outs rs P) (hg : 1 < c.gamma) (hM : Rotates P.fr M)
    (hU : ∀ i < P.G.length, Physical c.gamma (P.U i)) :
    ∃ res m, evaluateDt c P.fr ranks outs rs = .ok (res, m) ∧ res.length = cl.length ∧
      (∀ (r : Nat) (o : RankOut) (p : List Lams × List ℝ) (q : Int) (v : Nat), outs[r]? = some o → res[r]? = some p →
        LocalName (outs.map (·.nFaces)) r o.faceMap.ghostIndex q v → Global (outs.map (·.nFaces)) q → p.1[v]? = some (P.speeds c q)) ∧
      (c.useLocal = true → OwnValues cl (res.map (·.2)) (P.step c) ∧
        ∀ (r : Nat) (x : RankIn) (s : Rk d) (p : List Lams × List ℝ), ranks[r]? = some x → rs[r]? = some s → res[r]? = some p →
          p.2.drop x.nOwn = s.dt.drop x.nOwn) ∧
      (c.useLocal = false → ∀ (r : Nat) (x : RankIn) (p : List Lams × List ℝ), ranks[r]? = some x → res[r]? = some p →
        p.2 = List.replicate x.cells.length m) ∧
      (P.G ≠ [] → c.maxDt ≤ veryLarge → IsLeast {t | ∃ i < P.G.length, t = P.step c i} m) := by
  have hlo : outs.length = ranks.length := hO.num.size
  have hls := hO.size
  obtain ⟨as, e1, l1, h1⟩ := N2C.forRanks_all (fun _ (x : (RankIn × RankOut) × Rk d) => rankDt c P.fr x.1.1.nOwn x.1.2 x.2)
    (fun r x w => w.2.2 = w.2.1.foldl min veryLarge ∧
      (∀ (q : Int) (v : Nat), Global (outs.map (·.nFaces)) q → FName outs r x.1.2 q v → w.1[v]? = some (P.speeds c q)) ∧
      w.2.1.length = x.1.1.nOwn ∧ ∀ i : Nat, Owns cl r i → w.2.1[((i : Int) - before cl r).toNat]? = some (P.step c i))
    ((ranks.zip outs).zip rs) (by
      rintro r ⟨⟨x, o⟩, s⟩ h
      obtain ⟨h2, hs⟩ := List.getElem?_zip_eq_some.1 h
      obtain ⟨hx, ho⟩ := List.getElem?_zip_eq_some.1 h2
      obtain ⟨lams, dts, g1, _, g3, g4, g5⟩ := rankDt_spec hO hg hM hU hx ho hs
      exact ⟨_, g1, rfl, g3, g4, g5⟩)
  have hlen : ((ranks.zip outs).zip rs).length = ranks.length := by
    rw [List.length_zip, List.length_zip]; omega
  have hget : ∀ {r : Nat}, r < ranks.length → ∃ x o s a, ranks[r]? = some x ∧ outs[r]? = some o ∧ rs[r]? = some s ∧ as[r]? = some a ∧
      a.2.2 = a.2.1.foldl min veryLarge ∧
      (∀ (q : Int) (v : Nat), Global (outs.map (·.nFaces)) q → FName outs r o q v → a.1[v]? = some (P.speeds c q)) ∧
      a.2.1.length = x.nOwn ∧ ∀ i : Nat, Owns cl r i → a.2.1[((i : Int) - before cl r).toNat]? = some (P.step c i) := by
    intro r hr
    have hx := List.getElem?_eq_getElem hr
    have ho := List.getElem?_eq_getElem (l := outs) (i := r) (by omega)
    have hs := List.getElem?_eq_getElem (l := rs) (i := r) (by omega)
    have ha := List.getElem?_eq_getElem (l := as) (i := r) (by omega)
    have hz : ((ranks.zip outs).zip rs)[r]? = some ((_, _), _) :=
      List.getElem?_zip_eq_some.2 ⟨List.getElem?_zip_eq_some.2 ⟨hx, ho⟩, hs⟩
    exact ⟨_, _, _, _, hx, ho, hs, ha, h1 r _ _ hz ha⟩
  have hres : ∀ {r : Nat} {p : List Lams × List ℝ}, ((as.zip rs).map fun p : (List Lams × List ℝ × ℝ) × Rk d =>
      (p.1.1, if c.useLocal then p.1.2.1 ++ p.2.dt.drop p.1.2.1.length else p.2.dt.map fun _ => allMin (as.map (·.2.2))))[r]? = some p →
      ∃ a s, as[r]? = some a ∧ rs[r]? = some s ∧
        p = (a.1, if c.useLocal then a.2.1 ++ s.dt.drop a.2.1.length else s.dt.map fun _ => allMin (as.map (·.2.2))) := by
    intro r p h
    rw [List.getElem?_map, Option.map_eq_some_iff] at h
    obtain ⟨⟨a, s⟩, h2, h3⟩ := h
    obtain ⟨ha, hs⟩ := List.getElem?_zip_eq_some.1 h2
    exact ⟨a, s, ha, hs, h3.symm⟩
  refine ⟨_, _, by rw [evaluateDt, e1, Res.ok_bind], ?_, ?_, ?_, ?_, ?_⟩
  · rw [List.length_map, List.length_zip, l1, hlen, hls, Nat.min_self, hO.dist.nranks]
  · intro r o p q v ho hp hn hq
    obtain ⟨a, s, ha, _, rfl⟩ := hres hp
    obtain ⟨x, o', s', a', _, ho', _, ha', _, h4, _⟩ := hget (r := r) (by rw [← hlo]; exact (List.getElem?_eq_some_iff.1 ho).1)
    rw [ho] at ho'; rw [ha] at ha'; cases ho'; cases ha'
    exact h4 q v hq hn
  · intro hl
    refine ⟨⟨?_, ?_⟩, ?_⟩
    · rw [List.length_map, List.length_map, List.length_zip, l1, hlen, hls, Nat.min_self, hO.dist.nranks]
    · intro r i row hoi hrow
      rw [List.getElem?_map, Option.map_eq_some_iff] at hrow
      obtain ⟨p, hp, rfl⟩ := hrow
      obtain ⟨a, s, ha, hs, rfl⟩ := hres hp
      have hr : r < ranks.length := by rw [← hls]; exact (List.getElem?_eq_some_iff.1 hs).1
      obtain ⟨x, o', s', a', hx, _, _, ha', _, _, h5, h6⟩ := hget hr
      rw [ha] at ha'; cases ha'
      simp only [hl, if_true]
      have := (own_index (hO.dist.holds r x hx) hoi).2
      rw [List.getElem?_append_left (by omega)]
      exact h6 i hoi
    · intro r x s p hx hs hp
      obtain ⟨a, s', ha, hs', rfl⟩ := hres hp
      rw [hs] at hs'; cases hs'
      obtain ⟨x', o', s', a', hx', _, _, ha', _, _, h5, _⟩ := hget (List.getElem?_eq_some_iff.1 hx).1
      rw [ha] at ha'; rw [hx] at hx'; cases ha'; cases hx'
      simp only [hl, if_true]
      rw [← h5, List.drop_left]
  · intro hl r x p hx hp
    obtain ⟨a, s, ha, hs, rfl⟩ := hres hp
    simp only [hl, if_false, Bool.false_eq_true]
    rw [← hO.lens r x s hx hs, List.map_const']
  · intro hne hmax
    have hpos : 0 < P.G.length := List.length_pos_iff.2 hne
    have hgl : ∀ i : Nat, i < P.G.length → ∃ r, r < ranks.length ∧ Owns cl r i := by
      intro i hi
      obtain ⟨r, hr⟩ := owns_exists (lens := cl) (q := (i : Int)) (by omega) (by rw [← hO.dist.len]; exact_mod_cast hi)
      exact ⟨r, by rw [hO.dist.nranks]; exact hr.1, hr⟩
    have hle : ∀ i < P.G.length, allMin (as.map (·.2.2)) ≤ P.step c i := by
      intro i hi
      obtain ⟨r, hr, hoi⟩ := hgl i hi
      obtain ⟨x, o, s, a, _, _, _, ha, h3, _, _, h6⟩ := hget hr
      have hm : a.2.2 ∈ as.map (·.2.2) := List.mem_map_of_mem (List.mem_of_getElem? ha)
      refine (allMin_le hm).trans ?_
      rw [h3]
      exact (foldl_min_le _ _).2 _ (List.mem_of_getElem? (h6 i hoi))
    refine ⟨?_, ?_⟩
    · have hmem : allMin (as.map (·.2.2)) ∈ as.map (·.2.2) := by
        refine allMin_mem ?_
        obtain ⟨r, hr, _⟩ := hgl 0 hpos
        intro h
        have : (as.map (·.2.2)).length = 0 := by rw [h]; rfl
        rw [List.length_map, l1, hlen] at this
        omega
      obtain ⟨a, ha, e⟩ := List.mem_map.1 hmem
      obtain ⟨r, hr⟩ := List.mem_iff_getElem?.1 ha
      have hrl : r < ranks.length := by rw [← hlen, ← l1]; exact (List.getElem?_eq_some_iff.1 hr).1
      obtain ⟨x, o, s, a', hx, _, _, ha', h3, _, h5, h6⟩ := hget hrl
      rw [hr] at ha'; cases ha'
      rcases foldl_min_mem a.2.1 veryLarge with h | h
      · -- then every step is that long
        refine ⟨0, hpos, le_antisymm (hle 0 hpos) ?_⟩
        rw [← e, h3, h]
        exact (min_le_right _ _).trans hmax
      · obtain ⟨l, hl⟩ := List.mem_iff_getElem?.1 h
        have hll : l < x.nOwn := by rw [← h5]; exact (List.getElem?_eq_some_iff.1 hl).1
        obtain ⟨i, _, hoi, rfl⟩ := Sweep.own_of_lt (hO.dist.holds r x hx) hll
        refine ⟨i, by have := (owns_range hoi).2; rw [hO.dist.len]; exact_mod_cast this, ?_⟩
        rw [h6 i hoi] at hl
        rw [← e, h3]; exact (Option.some.inj hl).symm
    · rintro t ⟨i, hi, rfl⟩
      exact hle i hi

/-- The step of a cell is positive, not longer than allowed, and what leaves the cell during the step is at most `CFL` times its
volume (scaled by the smoothing ratio). -/
theorem step_bounds (hg : 1 < c.gamma) (hM : Rotates P.fr M) (hO : OnMesh cl nl gc ranks outs rs P)
    (hU : ∀ i < P.G.length, Physical c.gamma (P.U i)) (hcfl : 0 < c.cfl) (hmax : 0 < c.maxDt)
    (hvol : ∀ i < P.G.length, 0 < P.vol i) (hratio : ∀ i < P.G.length, 0 < P.ratio i)
    (hgeo : ∀ q, Global (outs.map (·.nFaces)) q → 0 ≤ (P.geo q).area ∧ ∀ u p, 0 ≤ (P.geo q).mu u p) {i : Nat} (hi : i < P.G.length) :
    0 < P.step c i ∧ P.step c i ≤ c.maxDt ∧ P.step c i * P.outflow c i ≤ c.cfl * P.vol i * P.ratio i := by
  have hnum : 0 < c.cfl * P.vol i * P.ratio i := mul_pos (mul_pos hcfl (hvol i hi)) (hratio i hi)
  have hout : 0 ≤ P.outflow c i := by
    refine Finset.sum_nonneg fun j hj => ?_
    obtain ⟨a, ha⟩ := isSlot_of (per := P.per) (Finset.mem_range.1 hj)
    have hq := hO.num.range i j a ha
    exact mul_nonneg (speed_pos hg hM hO hU hvol hgeo hq).le (hgeo _ hq).1
  have hden : 0 < P.outflow c i + 1 / 10 ^ 100 := by positivity
  refine ⟨lt_min (div_pos hnum hden) hmax, min_le_right _ _, ?_⟩
  calc P.step c i * P.outflow c i ≤ c.cfl * P.vol i * P.ratio i / (P.outflow c i + 1 / 10 ^ 100) * P.outflow c i :=
        mul_le_mul_of_nonneg_right (min_le_left _ _) hout
    _ ≤ c.cfl * P.vol i * P.ratio i / (P.outflow c i + 1 / 10 ^ 100) * (P.outflow c i + 1 / 10 ^ 100) :=
        mul_le_mul_of_nonneg_left (by linarith [show (0 : ℝ) < 1 / 10 ^ 100 by positivity]) (div_pos hnum hden).le
    _ = c.cfl * P.vol i * P.ratio i := div_mul_cancel₀ _ hden.ne'

/-- A first-order explicit step with these time steps, local or global, and the flux `Roe_M2` keeps density and pressure positive
in every own cell of every rank: `rhs` is what the loops over the faces give, with and without OpenMP, and the cells may have any
steps up to those of `EvaluateDt`.  The states behind boundaries must not have faster waves than the cells in front of them, which
is all that `EvaluateDt` looks at there. -/
theorem euler_step_physical (hg : 1 < c.gamma) (hM : Rotates P.fr M) (hO : OnMesh cl nl gc ranks outs rs P)
    (hU : ∀ i < P.G.length, Physical c.gamma (P.U i)) (hcfl : 0 < c.cfl) (hmax : 0 < c.maxDt)
    (hvol : ∀ i < P.G.length, 0 < P.vol i) (hratio : ∀ i < P.G.length, 0 < P.ratio i ∧ c.cfl * P.ratio i < 2)
    (hgeo : ∀ q, Global (outs.map (·.nFaces)) q → (0 ≤ (P.geo q).area ∧ ∀ u p, 0 ≤ (P.geo q).mu u p) ∧ (P.geo q).norm ⬝ᵥ (P.geo q).norm = 1)
    (hclosed : ∀ i < P.G.length, P.Closed M i) {bnd : Int → St ℝ d} (hb : ∀ q, Physical c.gamma (bnd q))
    (hslow : ∀ q, Global (outs.map (·.nFaces)) q → P.far q = none →
      fastest c.gamma (P.geo q).vg (P.geo q).norm (bnd q) ≤ fastest c.gamma (P.geo q).vg (P.geo q).norm (P.near q))
    {ds : List (Flux.Fields ℝ (St ℝ d))} {flux : Int → St ℝ d} (hA : Agree cl ranks outs ds P.vol flux fun q => (P.geo q).zone)
    (hf : ∀ q, Global (outs.map (·.nFaces)) q → P.FirstOrder c bnd q (flux q))
    {dt : Nat → ℝ} (hdt : ∀ i < P.G.length, 0 ≤ dt i ∧ dt i ≤ P.step c i) :
    ∃ s g rhs, serialAll P.fr ds outs = .ok s ∧ gatherAll P.fr ds ranks outs = .ok g ∧ OwnValues cl s rhs ∧ OwnValues cl g rhs ∧
      ∀ i < P.G.length, Physical c.gamma (P.U i + dt i • rhs i) := by
  obtain ⟨s, g, h1, h2, h3, h4⟩ := Flux.rhs_oriented P.fr hO.dist hO.num hO.orient hA
  refine ⟨s, g, _, h1, h2, h3, h4, ?_⟩
  intro i hi
  have hslot : ∀ j < nSides P.G i, ∃ a, IsSlot P.per P.G i j a := fun j hj => isSlot_of hj
  have hterm : ∀ j < nSides P.G i, _ := fun j hj =>
    have ⟨a, ha⟩ := hslot j hj
    slot_term hg hM hO hU hb ha (hf _ (hO.num.range i j a ha))
  have hgeo' := fun q hq => (hgeo q hq).1
  have hbal : P.U i + dt i • balance P.fr P.G P.F (firstSide P.E P.F) P.vol flux (fun q => (P.geo q).zone) i =
      P.U i + (dt i / P.vol i) • ∑ j ∈ Finset.range (nSides P.G i),
        (-(P.geo (P.F i j)).area) • ((1 / 2 : ℝ) • (physFlux c.gamma (P.U i) (P.faceVelo M i j) (P.outward M i j) +
          physFlux c.gamma (beyond P M bnd i j) (P.faceVelo M i j) (P.outward M i j)) -
          (1 / 2 * fluxSpeed P c bnd (P.F i j)) • (beyond P M bnd i j - P.U i)) := by
    rw [balance, smul_smul, ← div_eq_mul_inv]
    congr 2
    exact Finset.sum_congr rfl fun j hj => (hterm j (Finset.mem_range.1 hj)).2.2
  rw [hbal]
  have hv := hvol i hi
  refine cell_physical hg (hU i hi) (nSides P.G i) (fun j => (P.geo (P.F i j)).area) (fun j => fluxSpeed P c bnd (P.F i j)) (P.outward M i) (P.faceVelo M i)
    (beyond P M bnd i) ?_ ?_ (fun j hj => (hterm j hj).1) (fun j hj => (hterm j hj).2.1) (hclosed i hi).1 (hclosed i hi).2
    (div_nonneg (hdt i hi).1 hv.le) ?_
  · intro j hj
    obtain ⟨a, ha⟩ := hslot j hj
    exact (hgeo' _ (hO.num.range i j a ha)).1
  · intro j hj
    obtain ⟨a, ha⟩ := hslot j hj
    exact outward_unit hM (hgeo _ (hO.num.range i j a ha)).2
  · have hle : ∑ j ∈ Finset.range (nSides P.G i), (P.geo (P.F i j)).area * fluxSpeed P c bnd (P.F i j) ≤ P.outflow c i := by
      refine Finset.sum_le_sum fun j hj => ?_
      obtain ⟨a, ha⟩ := hslot j (Finset.mem_range.1 hj)
      have hq := hO.num.range i j a ha
      rw [mul_comm]
      refine mul_le_mul_of_nonneg_right ?_ (hgeo' _ hq).1
      have hvis := visc_nonneg hM hO hU hvol hgeo' hq
      have : fluxSpeed P c bnd (P.F i j) ≤ P.wave c (P.F i j) := by
        rw [fluxSpeed, Prob.wave, Prob.behind, Prob.far']
        cases hfar : P.far (P.F i j) with
        | none => exact max_le_max le_rfl (hslow _ hq hfar)
        | some w => exact le_rfl
      rw [Prob.speed]; linarith
    obtain ⟨b1, b2, b3⟩ := step_bounds hg hM hO hU hcfl hmax hvol (fun i hi => (hratio i hi).1) hgeo' hi
    have hnn : 0 ≤ ∑ j ∈ Finset.range (nSides P.G i), (P.geo (P.F i j)).area * fluxSpeed P c bnd (P.F i j) := by
      refine Finset.sum_nonneg fun j hj => ?_
      obtain ⟨a, ha⟩ := hslot j (Finset.mem_range.1 hj)
      have hq := hO.num.range i j a ha
      exact mul_nonneg (hgeo' _ hq).1 ((fastest_pos hg (near_physical hO hU hq)).le.trans (le_max_left _ _))
    rw [div_mul_eq_mul_div, div_lt_iff₀ hv]
    have h5 : dt i * ∑ j ∈ Finset.range (nSides P.G i), (P.geo (P.F i j)).area * fluxSpeed P c bnd (P.F i j) ≤ c.cfl * P.vol i * P.ratio i :=
      calc _ ≤ P.step c i * P.outflow c i := mul_le_mul (hdt i hi).2 hle hnn b1.le
        _ ≤ _ := b3
    have h6 : c.cfl * P.vol i * P.ratio i < 2 * P.vol i := by
      have := mul_lt_mul_of_pos_right (hratio i hi).2 hv
      linarith
    exact lt_of_le_of_lt h5 h6

end DNDSR.Dt
