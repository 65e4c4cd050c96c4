import Verif.Props.TimeStep
import Verif.Props.RecIterDemo

/-!
# C86: the hypotheses can be met, and where the code falls short
-/

namespace DNDSR.Dt

open DNDSR.Elem DNDSR.IMap DNDSR.MeshAdj
open DNDSR.Faces hiding rename
open DNDSR.Gas (St Physical primOf physFlux side)
open DNDSR.Flux (nSides firstSide Frame OwnValues Agree balance serialAll gatherAll isSlot_of agree_exists)
open DNDSR.Sweep (Mates own_index system_exists)
open Matrix

variable {d : Nat} {cl nl : List Nat} {gc : GOM} {ranks : List RankIn} {outs : List RankOut} {rs : List (Rk d)} {P : Prob d} {c : Conf}

/-- The values can be given to the ranks in any way that depends on the global numbers only. -/
theorem onmesh_exists (hD : Distributed P.per cl nl P.G gc ranks) (hN : Numbered P.per cl nl P.G ranks outs P.F) (hE : Orient P.per cl P.G ranks outs P.F P.E)
    (hM : Mates P.per P.G P.F P.mate) : ∃ rs, OnMesh cl nl gc ranks outs rs P := by
  let mk : RankIn → RankOut → Rk d := fun x o =>
    ⟨(List.range x.cells.length).map fun l : Nat => P.U (numberOf x.cellMap (l : Int)).toNat,
      (List.range x.cells.length).map fun l : Nat => P.vol (numberOf x.cellMap (l : Int)).toNat,
      (List.range x.cells.length).map fun l : Nat => P.ratio (numberOf x.cellMap (l : Int)).toNat,
      (List.range o.faces.length).map fun v : Nat => P.geo (numberOf o.faceMap (v : Int)),
      List.replicate x.cells.length 0⟩
  have hget : ∀ {r : Nat} {d : Rk d}, (List.zipWith mk ranks outs)[r]? = some d →
      ∃ x o, ranks[r]? = some x ∧ outs[r]? = some o ∧ d = mk x o := by
    intro r d h
    rw [List.getElem?_zipWith] at h
    cases hx : ranks[r]? with
    | none => simp [hx] at h
    | some x =>
        cases ho : outs[r]? with
        | none => simp [hx, ho] at h
        | some o =>
            simp only [hx, ho, Option.some.injEq] at h
            exact ⟨x, o, rfl, rfl, h.symm⟩
  refine ⟨List.zipWith mk ranks outs, ⟨hD, hN, hE, hM, by rw [List.length_zipWith, hN.size, Nat.min_self], ?_, ?_, ?_⟩⟩
  · intro r o d q v ho hd hn hq
    obtain ⟨x, o', hx, ho', rfl⟩ := hget hd
    rw [ho] at ho'; cases ho'
    have hlt := face_lt hN ho (by omega) hn hq.1
    rw [Int.toNat_natCast] at hlt
    simp only [mk, List.getElem?_map, List.getElem?_range hlt, Option.map_some, numberOf_eq (face_faithful hN ho) hq.1 (by omega) hn]
  · intro r x d i l hx hd hi
    obtain ⟨x', o, hx', ho, rfl⟩ := hget hd
    rw [hx] at hx'; cases hx'
    have hH := hD.holds r x hx
    simp only [mk, List.getElem?_map, List.getElem?_range (is_lt hH hi), Option.map_some, number_is hH hi, Int.toNat_natCast, and_self]
  · intro r x d hx hd
    obtain ⟨x', o, hx', ho, rfl⟩ := hget hd
    rw [hx] at hx'; cases hx'
    simp [mk]

/-! ## Two squares -/

/-- the normals of the sides of a square -/
def dir (j : Nat) : Fin 2 → ℝ := if j = 0 then ![0, -1] else if j = 1 then ![1, 0] else if j = 2 then ![0, 1] else ![-1, 0]

theorem dir_unit (j : Nat) : dir j ⬝ᵥ dir j = 1 := by
  simp only [dir]
  split_ifs <;> simp [dotProduct, Fin.sum_univ_two]

/-- two squares of side one, at rest, without viscosity -/
def squares (F : Nat → Nat → Int) (E : Int → Nat × Nat) (mate : Nat → Nat → Option Nat) (U : Nat → St ℝ 2) : Prob 2 :=
  ⟨false, TwoQuads.mesh, F, E, mate, ⟨false, fun _ u => u, fun _ u => u⟩, U, fun _ => 1, fun _ => 1, fun q => ⟨dir (E q).2, 1, 0, 1, fun _ _ => 0⟩⟩

theorem squares_rotates (F : Nat → Nat → Int) (E : Int → Nat × Nat) (mate : Nat → Nat → Option Nat) (U : Nat → St ℝ 2) :
    Rotates (squares F E mate U).fr fun _ => 1 :=
  ⟨fun _ => by simp, fun _ _ => by simp [squares], fun _ _ => by simp [squares]⟩

variable {F : Nat → Nat → Int} {E : Int → Nat × Nat} {mate : Nat → Nat → Option Nat} {U : Nat → St ℝ 2} {rs2 : List (Rk 2)}

theorem squares_sides {i : Nat} (hi : i < 2) : nSides TwoQuads.mesh i = 4 := by
  match i, hi with
  | 0, _ => decide
  | 1, _ => decide

theorem squares_outward (hO : OnMesh cl nl gc ranks outs rs2 (squares F E mate U)) {i j : Nat} (hi : i < 2) (hj : j < 4) :
    (squares F E mate U).outward (fun _ => 1) i j = dir j := by
  obtain ⟨a, ha⟩ := isSlot_of (per := false) (by rw [squares_sides hi]; exact hj : j < nSides TwoQuads.mesh i)
  have hN : Numbered false cl nl TwoQuads.mesh ranks outs F := hO.num
  have hM : Mates false TwoQuads.mesh F mate := hO.mates
  simp only [Prob.outward]
  cases hs : firstSide (squares F E mate U).E (squares F E mate U).F i j with
  | true =>
      have hE : E (F i j) = (i, j) := of_decide_eq_true hs
      show dir (E (F i j)).2 = dir j
      rw [hE]
  | false =>
      have hm := second_side hO ha hs
      have hq := hO.num.range i j a ha
      obtain ⟨hs1, b, hb⟩ := hO.orient.slot _ hq
      change F (E (F i j)).1 (E (F i j)).2 = F i j at hs1
      change IsSlot false TwoQuads.mesh (E (F i j)).1 (E (F i j)).2 b at hb
      change mate (E (F i j)).1 (E (F i j)).2 = some i at hm
      have h1 : (E (F i j)).1 < 2 := by
        obtain ⟨C, hC, _⟩ := hb
        exact (List.getElem?_eq_some_iff.1 hC).1
      have h2 : (E (F i j)).2 < 4 := by
        have := Flux.lt_of_isSlot hb
        rwa [squares_sides h1] at this
      have hne : (E (F i j)) ≠ (i, j) := of_decide_eq_false hs
      have hm2 : mate i j = some (E (F i j)).1 := (hM i j a ha _).2 ⟨_, b, hb, hs1, hne⟩
      rw [RecIt.twoQuads_mates (per := false) hN hM h1 h2] at hm
      rw [RecIt.twoQuads_mates (per := false) hN hM hi hj] at hm2
      show -((squares F E mate U).toBehind (fun _ => 1) 1 *ᵥ dir (E (F i j)).2) = dir j
      have ht : (squares F E mate U).toBehind (fun _ => 1) 1 = 1 := by simp [Prob.toBehind]
      rw [ht, one_mulVec]
      by_cases e0 : (i, j) = (0, 1)
      · rw [if_pos e0] at hm2
        have e1 : (E (F i j)).1 = 1 := (Option.some.inj hm2).symm
        have e2 : (E (F i j)).2 = 3 := by
          rw [e1, if_neg (by simp)] at hm
          by_contra h
          rw [if_neg (by simpa using h)] at hm
          cases hm
        rw [e2, (Prod.mk.inj e0).2]
        funext k
        match k with
        | 0 => simp [dir]
        | 1 => simp [dir]
      · rw [if_neg e0] at hm2
        by_cases e0' : (i, j) = (1, 3)
        · rw [if_pos e0'] at hm2
          have e1 : (E (F i j)).1 = 0 := (Option.some.inj hm2).symm
          have e2 : (E (F i j)).2 = 1 := by
            rw [e1] at hm
            by_contra h
            rw [if_neg (by simpa using h), if_neg (by simp)] at hm
            cases hm
          rw [e2, (Prod.mk.inj e0').2]
          funext k
          match k with
          | 0 => simp [dir]
          | 1 => simp [dir]
        · rw [if_neg e0'] at hm2; cases hm2

theorem squares_velo (i j : Nat) : (squares F E mate U).faceVelo (fun _ => 1) i j = 0 := by
  simp only [Prob.faceVelo]
  split
  · rfl
  · show _ *ᵥ (0 : Fin 2 → ℝ) = 0
    simp

theorem squares_closed (hO : OnMesh cl nl gc ranks outs rs2 (squares F E mate U)) {i : Nat} (hi : i < 2) :
    (squares F E mate U).Closed (fun _ => 1) i := by
  have hn : nSides (squares F E mate U).G i = 4 := squares_sides hi
  refine ⟨fun k => ?_, ?_⟩
  · rw [hn]
    simp only [Finset.sum_range_succ, Finset.sum_range_zero, squares_outward hO hi (show 0 < 4 by omega), squares_outward hO hi (show 1 < 4 by omega),
      squares_outward hO hi (show 2 < 4 by omega), squares_outward hO hi (show 3 < 4 by omega)]
    match k with
    | 0 => simp [dir, squares]
    | 1 => simp [dir, squares]
  · simp [squares_velo]

/-- a state at rest with density `rho` and energy `e` -/
def still (rho e : ℝ) : St ℝ 2 := (rho, 0, e)

theorem still_prim (g rho e : ℝ) : (primOf g (still rho e)).2.2 = (g - 1) * e := by simp [primOf, still]

theorem still_physical {rho e : ℝ} (h1 : 0 < rho) (h2 : 0 < e) : Physical (7 / 5) (still rho e) :=
  ⟨h1, by rw [still_prim]; linarith⟩

theorem still_through (n : Fin 2 → ℝ) (rho e : ℝ) : through 0 n (still rho e) = 0 := by simp [through, still]

/-- Two squares on two ranks with different states and the same states behind their boundaries: all that `steps_of_mesh`, `step_bounds` and
`euler_step_physical` ask for can be met. -/
example (srt : Sorter) (hs : Sorts srt) : ∃ gc ranks outs rs, ∃ P : Prob 2, ∃ c ds flux bnd res m s rhs,
    interpolate false srt gc ranks = .ok outs ∧ OnMesh [1, 1] [4, 2] gc ranks outs rs P ∧ P.U 0 ≠ P.U 1 ∧
    evaluateDt c P.fr ranks outs rs = .ok (res, m) ∧ IsLeast {t | ∃ i < P.G.length, t = P.step c i} m ∧ 0 < m ∧
    (∀ q, Global (outs.map (·.nFaces)) q → P.FirstOrder c bnd q (flux q)) ∧ Agree [1, 1] ranks outs ds P.vol flux (fun q => (P.geo q).zone) ∧
    serialAll P.fr ds outs = .ok s ∧ OwnValues [1, 1] s rhs ∧ ∀ i < P.G.length, Physical c.gamma (P.U i + m • rhs i) := by
  obtain ⟨gc, ranks, hD, _⟩ := TwoQuads.exists_ranks false
  obtain ⟨outs, _, hI, _⟩ := faces_global false srt hs _ _ _ gc ranks hD
  obtain ⟨F, E, mate, hN, hE, hMt⟩ := system_exists hs hD hI
  let U : Nat → St ℝ 2 := fun i => if i = 0 then still 1 2 else still 3 1
  let P := squares F E mate U
  let c : Conf := ⟨7 / 5, 1, 1 / 2, 1, true⟩
  have hg : 1 < c.gamma := by norm_num [c]
  obtain ⟨rs, hO⟩ := onmesh_exists (P := P) hD hN hE hMt
  have hM := squares_rotates F E mate U
  have hU' : ∀ i, Physical c.gamma (U i) := by
    intro i
    simp only [U]
    split
    · exact still_physical (by norm_num) (by norm_num)
    · exact still_physical (by norm_num) (by norm_num)
  have hU : ∀ i < P.G.length, Physical c.gamma (P.U i) := fun i _ => hU' i
  have hbp : ∀ q, Physical c.gamma (P.near q) := fun q => hU' _
  have hex : ∀ q, ∃ f, Global (outs.map (·.nFaces)) q → P.FirstOrder c P.near q f := by
    intro q
    by_cases hq : Global (outs.map (·.nFaces)) q
    · have hB : Physical c.gamma (P.behind P.near q) := by
        rw [Prob.behind]
        cases h : P.far q with
        | none => exact hbp q
        | some w => exact far_physical hM hO hU hq h
      obtain ⟨N, l, h⟩ := rusanov_exists hg (hbp q) hB (P.geo q).vg (P.geo q).norm 0
      exact ⟨_, fun _ => ⟨N, l, 0, h, rfl⟩⟩
    · exact ⟨0, fun h => absurd h hq⟩
  choose flux hflux using hex
  obtain ⟨ds, hA⟩ := agree_exists hD hN P.vol flux fun q => (P.geo q).zone
  have hgeo : ∀ q, Global (outs.map (·.nFaces)) q → (0 ≤ (P.geo q).area ∧ ∀ u p, 0 ≤ (P.geo q).mu u p) ∧ (P.geo q).norm ⬝ᵥ (P.geo q).norm = 1 :=
    fun q _ => ⟨⟨zero_le_one, fun _ _ => le_rfl⟩, dir_unit _⟩
  obtain ⟨res, m, h1, _, _, _, _, h6⟩ := steps_of_mesh hO hg hM hU
  have hmin := h6 (by simp [P, squares, TwoQuads.mesh]) (by simp only [c, veryLarge]; norm_num)
  have hstep : ∀ i < P.G.length, 0 < P.step c i := fun i hi =>
    (step_bounds hg hM hO hU (by norm_num [c]) (by norm_num [c]) (fun _ _ => one_pos) (fun _ _ => one_pos) (fun q hq => (hgeo q hq).1) hi).1
  have hm : 0 < m := by
    obtain ⟨i, hi, e⟩ := hmin.1
    rw [e]; exact hstep i hi
  obtain ⟨s, g, rhs, g1, _, g3, _, g5⟩ := euler_step_physical (dt := fun _ => m) (bnd := P.near) hg hM hO hU (by norm_num [c]) (by norm_num [c])
    (fun _ _ => one_pos) (fun _ _ => ⟨one_pos, by norm_num [c, P, squares]⟩) hgeo (fun i hi => squares_closed hO hi) hbp
    (fun _ _ _ => le_rfl) hA hflux (fun i hi => ⟨hm.le, hmin.2 ⟨i, hi, rfl⟩⟩)
  refine ⟨gc, ranks, outs, rs, P, c, ds, flux, P.near, res, m, s, rhs, hI, hO, ?_, h1, hmin, hm, hflux, hA, g1, g3, g5⟩
  intro h
  have := congrArg Prod.fst h
  simp [P, squares, U, still] at this

/-- What `EvaluateDt` does not look at: the state behind a boundary.  Two squares of gas at rest, with a thinner and much hotter gas behind their
boundaries: all that `euler_step_physical` asks for holds except that the waves behind the boundary are faster, `CFL` is one, and the step leaves a
negative density. -/
theorem boundary_speed_ignored (srt : Sorter) (hs : Sorts srt) : ∃ gc ranks outs rs, ∃ P : Prob 2, ∃ c ds flux bnd res m s rhs,
    interpolate false srt gc ranks = .ok outs ∧ OnMesh [1, 1] [4, 2] gc ranks outs rs P ∧ c.cfl = 1 ∧ c.useLocal = true ∧ (∀ i, P.ratio i = 1) ∧
    (∀ i < P.G.length, Physical c.gamma (P.U i)) ∧ (∀ q, Physical c.gamma (bnd q)) ∧ (∀ i < P.G.length, P.Closed (fun _ => 1) i) ∧
    evaluateDt c P.fr ranks outs rs = .ok (res, m) ∧ OwnValues [1, 1] (res.map (·.2)) (P.step c) ∧
    (∀ q, Global (outs.map (·.nFaces)) q → P.FirstOrder c bnd q (flux q)) ∧ Agree [1, 1] ranks outs ds P.vol flux (fun q => (P.geo q).zone) ∧
    serialAll P.fr ds outs = .ok s ∧ OwnValues [1, 1] s rhs ∧ (P.U 0 + P.step c 0 • rhs 0).1 < 0 := by
  obtain ⟨gc, ranks, hD, _⟩ := TwoQuads.exists_ranks false
  obtain ⟨outs, _, hI, _⟩ := faces_global false srt hs _ _ _ gc ranks hD
  obtain ⟨F, E, mate, hN, hE, hMt⟩ := system_exists hs hD hI
  let u : St ℝ 2 := still 1 (25 / 14)
  let w : St ℝ 2 := still (1 / 2) (625 / 7)
  let P := squares F E mate fun _ => u
  let c : Conf := ⟨7 / 5, 1, 1, 1, true⟩
  have hg : 1 < c.gamma := by norm_num [c]
  obtain ⟨rs, hO⟩ := onmesh_exists (P := P) hD hN hE hMt
  have hM := squares_rotates F E mate fun _ => u
  have hu : Physical c.gamma u := still_physical (by norm_num) (by norm_num)
  have hw : Physical c.gamma w := still_physical (by norm_num) (by norm_num)
  have hU : ∀ i < P.G.length, Physical c.gamma (P.U i) := fun _ _ => hu
  have hfar : ∀ q, P.far q = (mate (E q).1 (E q).2).map fun _ => u := by
    intro q
    simp [P, Prob.far, squares]
  have hex : ∀ q, ∃ f, P.FirstOrder c (fun _ => w) q f := by
    intro q
    have hB : Physical c.gamma (P.behind (fun _ => w) q) := by
      rw [Prob.behind, hfar]
      cases mate (E q).1 (E q).2 with
      | none => exact hw
      | some _ => exact hu
    obtain ⟨N, l, h⟩ := rusanov_exists hg hu hB (P.geo q).vg (P.geo q).norm 0
    exact ⟨_, N, l, 0, h, rfl⟩
  choose flux hflux using hex
  obtain ⟨ds, hA⟩ := agree_exists hD hN P.vol flux fun q => (P.geo q).zone
  obtain ⟨res, m, h1, _, _, h4, _, _⟩ := steps_of_mesh hO hg hM hU
  obtain ⟨s, g, g1, _, g3, _⟩ := Flux.rhs_oriented P.fr hO.dist hO.num hO.orient hA
  refine ⟨gc, ranks, outs, rs, P, c, ds, flux, fun _ => w, res, m, s, _, hI, hO, rfl, rfl, fun _ => rfl, hU, fun _ => hw, fun i hi => squares_closed hO hi, h1,
    (h4 rfl).1, fun q _ => hflux q, hA, g1, g3, ?_⟩
  have su : sound c.gamma u = 1 := by
    rw [sound, still_prim]
    have : c.gamma * ((c.gamma - 1) * (25 / 14)) / u.1 = 1 := by simp [c, u, still]; norm_num
    rw [this, Real.sqrt_one]
  have sw : sound c.gamma w = 10 := by
    rw [sound, still_prim]
    have : c.gamma * ((c.gamma - 1) * (625 / 7)) / w.1 = 10 ^ 2 := by simp [c, w, still]; norm_num
    rw [this, Real.sqrt_sq (by norm_num)]
  have fu : ∀ n, fastest c.gamma 0 n u = 1 := fun n => by rw [fastest, still_through, su]; norm_num
  have fw : ∀ n, fastest c.gamma 0 n w = 10 := fun n => by rw [fastest, still_through, sw]; norm_num
  have hn : nSides P.G 0 = 4 := squares_sides (by omega)
  -- the step
  have hspeed : ∀ q, P.speed c q = 1 := by
    intro q
    have h2 : P.far' q = u := by
      rw [Prob.far', hfar]
      cases mate (E q).1 (E q).2 <;> rfl
    have h3 : P.near q = u := rfl
    have h5 : P.visc c q = 0 := by simp [Prob.visc, P, squares]
    rw [Prob.speed, h5, Prob.wave, h2, h3]
    show max (fastest c.gamma 0 _ u) (fastest c.gamma 0 _ u) + 0 = 1
    rw [fu, max_self, add_zero]
  have hout : P.outflow c 0 = 4 := by
    rw [Prob.outflow, hn]
    simp only [hspeed]
    simp [P, squares]
  have hdt : 1 / 5 ≤ P.step c 0 := by
    rw [Prob.step, hout]
    refine le_min ?_ (by norm_num [c])
    have : c.cfl * P.vol 0 * P.ratio 0 = 1 := by simp [c, P, squares]
    rw [this]
    norm_num
  -- the right-hand side
  have hz : ∀ (n : Fin 2 → ℝ) (rho e : ℝ), (physFlux c.gamma (still rho e) 0 n).1 = 0 := by
    intro n rho e
    simp [physFlux, Gas.fluxXY, side, still, Gas.St.c0, Gas.St.cv]
  have hterm : ∀ j < 4, (if firstSide P.E P.F 0 j then flux (P.F 0 j) else Flux.turn P.fr (P.geo (P.F 0 j)).zone (-flux (P.F 0 j))).1 =
      if j = 1 then 0 else -(5 / 2) := by
    intro j hj
    obtain ⟨a, ha⟩ := isSlot_of (per := false) (by rw [squares_sides (by omega)]; exact hj : j < nSides TwoQuads.mesh 0)
    have ht := (slot_term hg hM hO hU (bnd := fun _ => w) (fun _ => hw) ha (hflux _)).2.2
    have hmt : mate 0 j = if j = 1 then some 1 else none := by
      rw [RecIt.twoQuads_mates (per := false) hN hMt (by omega) hj]
      by_cases h : j = 1
      · simp [h]
      · simp [h]
    have hvel := squares_velo (F := F) (E := E) (mate := mate) (U := fun _ => u) 0 j
    change Prob.faceVelo P _ _ _ = 0 at hvel
    rw [ht, hvel]
    by_cases hj1 : j = 1
    · have hb : beyond P (fun _ => 1) (fun _ => w) 0 j = u := by
        rw [beyond]
        split
        · rename_i hfs
          have hE' : E (F 0 j) = (0, j) := of_decide_eq_true hfs
          rw [Prob.behind, hfar]
          show ((mate (E (F 0 j)).1 (E (F 0 j)).2).map fun _ => u).getD w = u
          rw [hE', hmt, if_pos hj1]; rfl
        · show rot (P.toBehind (fun _ => 1) 1) u = u
          simp [Prob.toBehind, P, squares, rot]
      rw [hb, if_pos hj1]
      show -1 * (1 / 2 * ((physFlux c.gamma u 0 _).1 + (physFlux c.gamma u 0 _).1) - 1 / 2 * fluxSpeed P c (fun _ => w) (P.F 0 j) * (1 - 1)) = 0
      rw [hz]; norm_num
    · have hfs : firstSide P.E P.F 0 j = true := by
        cases hfs : firstSide P.E P.F 0 j with
        | true => rfl
        | false =>
            have hq := hO.num.range 0 j a ha
            obtain ⟨hs1, b, hb⟩ := hO.orient.slot _ hq
            have hne : E (F 0 j) ≠ (0, j) := of_decide_eq_false hfs
            have := (hMt 0 j a ha _).2 ⟨_, b, hb, hs1, hne⟩
            rw [hmt, if_neg hj1] at this; cases this
      have hE' : E (F 0 j) = (0, j) := of_decide_eq_true hfs
      have hbh : P.behind (fun _ => w) (P.F 0 j) = w := by
        rw [Prob.behind, hfar]
        show ((mate (E (F 0 j)).1 (E (F 0 j)).2).map fun _ => u).getD w = w
        rw [hE', hmt, if_neg hj1]; rfl
      have hb : beyond P (fun _ => 1) (fun _ => w) 0 j = w := by rw [beyond, if_pos hfs, hbh]
      have hsp : fluxSpeed P c (fun _ => w) (P.F 0 j) = 10 := by
        rw [fluxSpeed, hbh]
        show max (fastest c.gamma 0 _ u) (fastest c.gamma 0 _ w) = 10
        rw [fu, fw]; norm_num
      rw [hb, hsp, if_neg hj1]
      show -1 * (1 / 2 * ((physFlux c.gamma u 0 _).1 + (physFlux c.gamma w 0 _).1) - 1 / 2 * 10 * (1 / 2 - 1)) = -(5 / 2)
      rw [hz, hz]; norm_num
  have hrhs : (balance P.fr P.G P.F (firstSide P.E P.F) P.vol flux (fun q => (P.geo q).zone) 0).1 = -(15 / 2) := by
    rw [balance, hn, Prod.smul_fst, Prod.fst_sum]
    rw [Finset.sum_congr rfl fun j hj => hterm j (Finset.mem_range.1 hj)]
    simp only [Finset.sum_range_succ, Finset.sum_range_zero]
    norm_num [P, squares]
  rw [Prod.fst_add, Prod.smul_fst, hrhs, smul_eq_mul]
  show (1 : ℝ) + _ < 0
  linarith

end DNDSR.Dt
