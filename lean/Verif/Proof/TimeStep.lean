import Verif.Spec.TimeStep
import Verif.Proof.Riemann
import Verif.Proof.SweepsRank

/-! Helper lemmas for `Verif.Props.TimeStep`. -/

namespace DNDSR.Dt

open DNDSR.Elem DNDSR.IMap DNDSR.MeshAdj DNDSR.Faces
open DNDSR.Gas (St St.c0 St.cv St.c4 side Physical primOf)
open DNDSR.Flux (nSides firstSide Frame isSlot_of at64_ok)
open DNDSR.Sweep (Mates own_index own_of_lt row_of)
open Matrix

variable {d : Nat}

/-- from the cell behind a face to the frame of the face -/
def turnIn (fr : Frame (St ℝ d)) (z : Int) (u : St ℝ d) : St ℝ d :=
  if fr.periodic = true ∧ z ∈ ([-1, -2, -3] : List Int) then fr.transBack z u
  else if fr.periodic = true ∧ z ∈ ([-4, -5, -6] : List Int) then fr.trans z u else u

theorem fromCell2Face_zero {V : Type} (fr : Frame V) (z : Int) (u : V) : fromCell2Face fr z 0 u = u := by
  simp [fromCell2Face]

theorem fromCell2Face_one (fr : Frame (St ℝ d)) (z : Int) (u : St ℝ d) : fromCell2Face fr z 1 u = turnIn fr z u := by
  simp only [fromCell2Face, turnIn, Flux.isPeriodic, Flux.isMain, Flux.isDonor]
  cases hp : fr.periodic
  · simp
  · by_cases h1 : z = -1
    · subst h1; simp
    by_cases h2 : z = -2
    · subst h2; simp
    by_cases h3 : z = -3
    · subst h3; simp
    by_cases h4 : z = -4
    · subst h4; simp
    by_cases h5 : z = -5
    · subst h5; simp
    by_cases h6 : z = -6
    · subst h6; simp
    simp [h1, h2, h3, h4, h5, h6]

theorem sound_eq {gamma : ℝ} {U : St ℝ d} (hU : Physical gamma U) : √(side gamma U).asqr = sound gamma U := by
  rw [Gas.side_asqr, Gas.side_p hU.rho.ne', sound]

theorem sound_pos {gamma : ℝ} (hg : 1 < gamma) {U : St ℝ d} (hU : Physical gamma U) : 0 < sound gamma U := by
  rw [← sound_eq hU]; exact Real.sqrt_pos.2 (Gas.side_asqr_pos hU hg)

theorem sound_sq {gamma : ℝ} (hg : 1 < gamma) {U : St ℝ d} (hU : Physical gamma U) : sound gamma U ^ 2 = (side gamma U).asqr := by
  rw [← sound_eq hU, Real.sq_sqrt (Gas.side_asqr_pos hU hg).le]

theorem through_eq {gamma : ℝ} (vg n : Fin d → ℝ) (U : St ℝ d) : (side gamma U).velo ⬝ᵥ n - vg ⬝ᵥ n = through vg n U := by
  rw [Gas.side_velo, through, ← sub_dotProduct]
  rfl

/-- the values of a face from its two states -/
noncomputable def pairLams (c : Conf) (g : Geo d) (L R : St ℝ d) (volL volR : ℝ) : Lams :=
  let m := (1 / 2 : ℝ) • (L + R)
  let p := 1 / 2 * ((primOf c.gamma L).2.2 + (primOf c.gamma R).2.2)
  let v := g.mu m p / m.1 * max (4 / 3) (c.gamma / c.pr) * g.area * (1 / volL + 1 / volR)
  let w := max (fastest c.gamma g.vg g.norm L) (fastest c.gamma g.vg g.norm R)
  { full := w + v, conv := |(through g.vg g.norm L + through g.vg g.norm R) / 2| + v, vis := v, wave := w,
    delta := |through g.vg g.norm R - through g.vg g.norm L| + √|sound c.gamma R ^ 2 - sound c.gamma L ^ 2| * (7071 / 10000) }

theorem faceLams_spec (c : Conf) (hg : 1 < c.gamma) (fr : Frame (St ℝ d)) (g : Geo d) (uL : St ℝ d) (volL : ℝ) (R : Option (St ℝ d × ℝ))
    (hL : Physical c.gamma uL) (hR : ∀ p, R = some p → Physical c.gamma (turnIn fr g.zone p.1)) :
    faceLams c fr g uL volL R =
      .ok (pairLams c g uL ((R.map fun p => turnIn fr g.zone p.1).getD uL) volL ((R.map (·.2)).getD volL)) := by
  have key : ∀ (UR : St ℝ d) (volR : ℝ), Physical c.gamma UR →
      (do
        Res.assert (0 < ((1 / 2 : ℝ) • (uL + UR) : St ℝ d).c0)
        Res.assert (0 ≤ (side c.gamma uL).asqr ∧ 0 ≤ (side c.gamma UR).asqr)
        (.ok { full := max (√(side c.gamma uL).asqr + |(side c.gamma uL).velo ⬝ᵥ g.norm - g.vg ⬝ᵥ g.norm|)
                  (√(side c.gamma UR).asqr + |(side c.gamma UR).velo ⬝ᵥ g.norm - g.vg ⬝ᵥ g.norm|) +
                  g.mu ((1 / 2 : ℝ) • (uL + UR)) (((side c.gamma uL).p + (side c.gamma UR).p) * (1 / 2)) / ((1 / 2 : ℝ) • (uL + UR) : St ℝ d).c0 *
                    max (4 / 3) (c.gamma / c.pr) * g.area * (1 / volL + 1 / volR),
               conv := |1 / 2 * (((side c.gamma uL).velo + (side c.gamma UR).velo) ⬝ᵥ g.norm) - g.vg ⬝ᵥ g.norm| +
                  g.mu ((1 / 2 : ℝ) • (uL + UR)) (((side c.gamma uL).p + (side c.gamma UR).p) * (1 / 2)) / ((1 / 2 : ℝ) • (uL + UR) : St ℝ d).c0 *
                    max (4 / 3) (c.gamma / c.pr) * g.area * (1 / volL + 1 / volR),
               vis := g.mu ((1 / 2 : ℝ) • (uL + UR)) (((side c.gamma uL).p + (side c.gamma UR).p) * (1 / 2)) / ((1 / 2 : ℝ) • (uL + UR) : St ℝ d).c0 *
                    max (4 / 3) (c.gamma / c.pr) * g.area * (1 / volL + 1 / volR),
               wave := max (√(side c.gamma uL).asqr + |(side c.gamma uL).velo ⬝ᵥ g.norm - g.vg ⬝ᵥ g.norm|)
                  (√(side c.gamma UR).asqr + |(side c.gamma UR).velo ⬝ᵥ g.norm - g.vg ⬝ᵥ g.norm|),
               delta := |((side c.gamma UR).velo - (side c.gamma uL).velo) ⬝ᵥ g.norm| +
                  √|(side c.gamma UR).asqr - (side c.gamma uL).asqr| * (7071 / 10000) } : Res Lams)) =
      .ok (pairLams c g uL UR volL volR) := by
    intro UR volR hUR
    have h0 : 0 < ((1 / 2 : ℝ) • (uL + UR) : St ℝ d).c0 := by
      show 0 < 1 / 2 * (uL.1 + UR.1)
      have := hL.rho; have := hUR.rho
      linarith
    rw [Res.assert_true _ h0, Res.ok_bind,
      Res.assert_true _ ⟨(Gas.side_asqr_pos hL hg).le, (Gas.side_asqr_pos hUR hg).le⟩, Res.ok_bind]
    have e1 := through_eq (gamma := c.gamma) g.vg g.norm uL
    have e2 := through_eq (gamma := c.gamma) g.vg g.norm UR
    have e3 : 1 / 2 * (((side c.gamma uL).velo + (side c.gamma UR).velo) ⬝ᵥ g.norm) - g.vg ⬝ᵥ g.norm =
        (through g.vg g.norm uL + through g.vg g.norm UR) / 2 := by
      rw [← e1, ← e2, add_dotProduct]; ring
    have e4 : ((side c.gamma UR).velo - (side c.gamma uL).velo) ⬝ᵥ g.norm = through g.vg g.norm UR - through g.vg g.norm uL := by
      rw [← e1, ← e2, sub_dotProduct]; ring
    have e5 : ((side c.gamma uL).p + (side c.gamma UR).p) * (1 / 2) = 1 / 2 * ((primOf c.gamma uL).2.2 + (primOf c.gamma UR).2.2) := by
      rw [Gas.side_p hL.rho.ne', Gas.side_p hUR.rho.ne']; ring
    rw [e3, e4, e5, e1, e2, sound_eq hL, sound_eq hUR, ← sound_sq hg hL, ← sound_sq hg hUR]
    simp only [pairLams, fastest, add_comm (sound c.gamma _) |_|]
    rfl
  cases R with
  | none =>
      have := key uL volL hL
      have hm : ((1 / 2 : ℝ) • (uL + uL) : St ℝ d) = uL := by
        rw [← two_smul ℝ, smul_smul]; norm_num
      simp only [hm] at this
      simp only [Option.map_none, Option.getD_none]
      rw [← this]
      simp only [faceLams, fromCell2Face_zero]
  | some p =>
      have := key (turnIn fr g.zone p.1) p.2 (hR p rfl)
      simp only [Option.map_some, Option.getD_some]
      rw [← this]
      simp only [faceLams, fromCell2Face_zero, fromCell2Face_one]

/-! ## Rotations -/

theorem rot_dot {A : Matrix (Fin d) (Fin d) ℝ} (hA : Aᵀ * A = 1) (v w : Fin d → ℝ) : (A *ᵥ v) ⬝ᵥ (A *ᵥ w) = v ⬝ᵥ w := by
  rw [dotProduct_mulVec, vecMul_mulVec, ← mulVec_transpose, transpose_mul, transpose_transpose, hA, one_mulVec]

/-- a state whose momentum is turned by `A` -/
def rot (A : Matrix (Fin d) (Fin d) ℝ) (U : St ℝ d) : St ℝ d := (U.1, A *ᵥ U.2.1, U.2.2)

theorem rot_prim {gamma : ℝ} {A : Matrix (Fin d) (Fin d) ℝ} (hA : Aᵀ * A = 1) (U : St ℝ d) : (primOf gamma (rot A U)).2.2 = (primOf gamma U).2.2 := by
  have := rot_dot hA U.2.1 U.2.1
  simp only [dotProduct] at this
  simp only [primOf, rot, this]

theorem rot_physical {gamma : ℝ} {A : Matrix (Fin d) (Fin d) ℝ} (hA : Aᵀ * A = 1) {U : St ℝ d} (hU : Physical gamma U) : Physical gamma (rot A U) :=
  ⟨hU.rho, by rw [rot_prim hA]; exact hU.p⟩

/-- the rotation into the frame of the face -/
noncomputable def inMat (fr : Frame (St ℝ d)) (M : Int → Matrix (Fin d) (Fin d) ℝ) (z : Int) : Matrix (Fin d) (Fin d) ℝ :=
  if fr.periodic = true ∧ z ∈ ([-1, -2, -3] : List Int) then (M z)ᵀ
  else if fr.periodic = true ∧ z ∈ ([-4, -5, -6] : List Int) then M z else 1

variable {fr : Frame (St ℝ d)} {M : Int → Matrix (Fin d) (Fin d) ℝ}

theorem turnIn_rot (hM : Rotates fr M) (z : Int) (U : St ℝ d) : turnIn fr z U = rot (inMat fr M z) U := by
  simp only [turnIn, inMat]
  split
  · rw [hM.back]; rfl
  · split
    · rw [hM.fwd]; rfl
    · simp [rot]

theorem turn_rot (hM : Rotates fr M) (z : Int) (U : St ℝ d) : Flux.turn fr z U = rot (inMat fr M z)ᵀ U := by
  simp only [Flux.turn, inMat]
  split
  · rw [hM.fwd, transpose_transpose]; rfl
  · split
    · rw [hM.back]; rfl
    · simp [rot]

theorem inMat_orth (hM : Rotates fr M) (z : Int) : (inMat fr M z)ᵀ * inMat fr M z = 1 := by
  simp only [inMat]
  split
  · rw [transpose_transpose, mul_eq_one_comm]; exact hM.orth z
  · split
    · exact hM.orth z
    · simp

/-! ## One rank -/

variable {cl nl : List Nat} {gc : GOM} {ranks : List RankIn} {outs : List RankOut} {rs : List (Rk d)} {P : Prob d} {c : Conf}

theorem speeds_eq (c : Conf) (q : Int) : P.speeds c q = pairLams c (P.geo q) (P.near q) (P.far' q) (P.vol (P.E q).1) (P.volFar q) := rfl

theorem far_turn (q : Int) : P.far q = (P.mate (P.E q).1 (P.E q).2).map fun i' => turnIn P.fr (P.geo q).zone (P.U i') := rfl

/-- the cell on the first side of a face is a cell of the mesh -/
theorem first_lt (hO : OnMesh cl nl gc ranks outs rs P) {q : Int} (hq : Global (outs.map (·.nFaces)) q) : (P.E q).1 < P.G.length := by
  obtain ⟨_, a, C, hC, _⟩ := hO.orient.slot q hq
  exact (List.getElem?_eq_some_iff.1 hC).1

theorem mate_lt (hO : OnMesh cl nl gc ranks outs rs P) {i j i' : Nat} {a : Slot} (ha : IsSlot P.per P.G i j a) (h : P.mate i j = some i') :
    i' < P.G.length := by
  obtain ⟨_, b, ⟨C, hC, _⟩, _⟩ := (hO.mates i j a ha i').1 h
  exact (List.getElem?_eq_some_iff.1 hC).1

theorem lamsOf_spec (hO : OnMesh cl nl gc ranks outs rs P) (hg : 1 < c.gamma) (hM : Rotates P.fr M)
    (hU : ∀ i < P.G.length, Physical c.gamma (P.U i)) {r : Nat} {x : RankIn} {o : RankOut} {s : Rk d} (hx : ranks[r]? = some x)
    (ho : outs[r]? = some o) (hs : rs[r]? = some s) {v : Nat} {f : Face} (hf : o.faces[v]? = some f) {q : Int}
    (hq : Global (outs.map (·.nFaces)) q) (hn : FName outs r o q v) : lamsOf c P.fr s v f = .ok (P.speeds c q) := by
  obtain ⟨⟨l, e1, h1⟩, h2⟩ := hO.orient.face r x o q v f hx ho hq hn hf
  obtain ⟨hs1, a, ha⟩ := hO.orient.slot q hq
  obtain ⟨u1, v1, _⟩ := hO.byCell r x s _ l hx hs h1
  have hp1 := hU _ (first_lt hO hq)
  rw [lamsOf, (idx_ok_iff _ _ _).2 (hO.byFace r o s q v ho hs hn hq), Res.ok_bind, e1, at64_ok u1, Res.ok_bind, at64_ok v1, Res.ok_bind, speeds_eq]
  rcases h2 with ⟨e2, _, h3⟩ | ⟨l', i', j', b, e2, h3, hb, hne, he⟩
  · rw [if_pos e2, faceLams_spec c hg _ _ _ _ _ hp1 (by intro p hp; cases hp)]
    have hm : P.mate (P.E q).1 (P.E q).2 = none := by
      cases hm : P.mate (P.E q).1 (P.E q).2 with
      | none => rfl
      | some i' =>
          obtain ⟨j', b, hb, he, hne⟩ := (hO.mates _ _ a ha i').1 hm
          exact absurd (h3 i' j' b hb (by rw [he, hs1])) hne
    simp only [Prob.far', Prob.far, Prob.volFar, hm, Option.map_none, Option.getD_none]
    rfl
  · have hm : P.mate (P.E q).1 (P.E q).2 = some i' := (hO.mates _ _ a ha i').2 ⟨j', b, hb, by rw [he, hs1], hne⟩
    obtain ⟨u2, v2, _⟩ := hO.byCell r x s _ l' hx hs h3
    have hp2 := hU _ (mate_lt hO ha hm)
    rw [if_neg (by rw [e2]; simp only [unInit]; omega), e2, at64_ok u2, Res.ok_bind, at64_ok v2, Res.ok_bind,
      faceLams_spec c hg _ _ _ _ _ hp1 (by
        intro p hp
        cases hp
        rw [turnIn_rot hM]
        exact rot_physical (inMat_orth hM _) hp2)]
    simp only [Prob.far', far_turn, Prob.volFar, hm, Option.map_some, Option.getD_some]
    rfl

theorem cellLam_spec (lams : List Lams) (geo : List (Geo d)) : ∀ (row : List Int) (term : Nat → ℝ) (acc : ℝ),
    (∀ (j : Nat) (e : Int), row[j]? = some e → ∃ l g, at64 lams e = .ok l ∧ at64 geo e = .ok g ∧ l.full * g.area = term j) →
    cellLam lams geo row acc = .ok (acc + ∑ j ∈ Finset.range row.length, term j) := by
  intro row
  induction row with
  | nil => intro term acc _; simp [cellLam]
  | cons e es ih =>
      intro term acc h
      obtain ⟨l, g, h1, h2, h3⟩ := h 0 e rfl
      rw [cellLam, h1, Res.ok_bind, h2, Res.ok_bind, ih (fun j => term (j + 1)) _ (fun j e he => h (j + 1) e he)]
      rw [List.length_cons, Finset.sum_range_succ', h3]
      congr 1
      ring

theorem rankDt_spec (hO : OnMesh cl nl gc ranks outs rs P) (hg : 1 < c.gamma) (hM : Rotates P.fr M)
    (hU : ∀ i < P.G.length, Physical c.gamma (P.U i)) {r : Nat} {x : RankIn} {o : RankOut} {s : Rk d} (hx : ranks[r]? = some x)
    (ho : outs[r]? = some o) (hs : rs[r]? = some s) :
    ∃ lams dts, rankDt c P.fr x.nOwn o s = .ok (lams, dts, dts.foldl min veryLarge) ∧ lams.length = o.faces.length ∧
      (∀ (q : Int) (v : Nat), Global (outs.map (·.nFaces)) q → FName outs r o q v → lams[v]? = some (P.speeds c q)) ∧
      dts.length = x.nOwn ∧ ∀ i : Nat, Owns cl r i → dts[((i : Int) - before cl r).toNat]? = some (P.step c i) := by
  have hH := hO.dist.holds r x hx
  obtain ⟨lams, e1, l1, h1⟩ := N2C.forRanks_all (fun v f => lamsOf c P.fr s v f)
    (fun v f w => ∀ q, Global (outs.map (·.nFaces)) q → FName outs r o q v → w = P.speeds c q) o.faces (by
      intro v f hf
      obtain ⟨q, hq, hn⟩ := face_number hO.num hx ho hf
      refine ⟨_, lamsOf_spec hO hg hM hU hx ho hs hf hq hn, ?_⟩
      intro q' hq' hn'
      have := lamsOf_spec hO hg hM hU hx ho hs hf hq' hn'
      rw [lamsOf_spec hO hg hM hU hx ho hs hf hq hn] at this
      exact Res.ok.inj this)
  have hlam : ∀ (q : Int) (v : Nat), Global (outs.map (·.nFaces)) q → FName outs r o q v → lams[v]? = some (P.speeds c q) := by
    intro q v hq hn
    have hlt := face_lt hO.num ho (by omega) hn hq.1
    rw [Int.toNat_natCast] at hlt
    have hv := List.getElem?_eq_getElem (l := lams) (i := v) (by omega)
    rw [hv, h1 v _ _ (List.getElem?_eq_getElem hlt) hv q hq hn]
  obtain ⟨dts, e2, l2, h2⟩ := N2C.forRanks_all (fun l row => cellDt c s lams l row)
    (fun l _ w => ∀ i : Nat, Is cl r x l i → w = P.step c i) (o.c2f.take x.nOwn) (by
      intro l row hrow
      have hl : l < x.nOwn := by
        have := (List.getElem?_eq_some_iff.1 hrow).1
        rw [List.length_take] at this; omega
      rw [List.getElem?_take_of_lt hl] at hrow
      obtain ⟨i, hi, hoi, _⟩ := own_of_lt hH hl
      obtain ⟨row', hrow', hw⟩ := row_of hO.dist hO.num hx ho hi hoi
      rw [hrow] at hrow'; cases hrow'
      obtain ⟨_, v1, r1⟩ := hO.byCell r x s i l hx hs hi
      refine ⟨P.step c i, ?_, ?_⟩
      · rw [cellDt, cellLam_spec lams s.geo row (fun j => P.speed c (P.F i j) * (P.geo (P.F i j)).area) 0 (by
          intro j e he
          have hj : j < nSides P.G i := by rw [← hw]; exact (List.getElem?_eq_some_iff.1 he).1
          obtain ⟨a, ha⟩ := isSlot_of (per := P.per) hj
          obtain ⟨v, f, g1, hn, hf⟩ := own_face hO.num hx ho hi hoi ha
          have : e = (v : Int) := gives_unique ⟨row, hrow, he⟩ g1
          subst this
          have hq := hO.num.range i j a ha
          exact ⟨_, _, at64_ok (hlam _ v hq hn), at64_ok (hO.byFace r o s _ v ho hs hn hq), rfl⟩), Res.ok_bind,
          (idx_ok_iff _ _ _).2 v1, Res.ok_bind, (idx_ok_iff _ _ _).2 r1, Res.ok_bind, hw, zero_add]
        rfl
      · intro i' hi'
        rw [is_inj hH hi' hi])
  have htk : (o.c2f.take x.nOwn).length = x.nOwn := by
    rw [List.length_take, hO.num.rows r x o hx ho]
    have := Sweep.nOwn_le hH
    omega
  refine ⟨lams, dts, by rw [rankDt, e1, Res.ok_bind, e2, Res.ok_bind], l1, hlam, by rw [l2, htk], ?_⟩
  intro i hoi
  obtain ⟨hi, hl⟩ := own_index hH hoi
  have hd := List.getElem?_eq_getElem (l := dts) (i := ((i : Int) - before cl r).toNat) (by omega)
  rw [hd, h2 _ _ _ (List.getElem?_eq_getElem (by omega)) hd i hi]

/-! ## Minima -/

theorem foldl_min_le (l : List ℝ) : ∀ a : ℝ, l.foldl min a ≤ a ∧ ∀ b ∈ l, l.foldl min a ≤ b := by
  induction l with
  | nil => intro a; simp
  | cons b l ih =>
      intro a
      obtain ⟨h1, h2⟩ := ih (min a b)
      refine ⟨h1.trans (min_le_left _ _), ?_⟩
      intro b' hb'
      rcases List.mem_cons.1 hb' with rfl | hb'
      · exact h1.trans (min_le_right _ _)
      · exact h2 b' hb'

theorem foldl_min_mem (l : List ℝ) : ∀ a : ℝ, l.foldl min a = a ∨ l.foldl min a ∈ l := by
  induction l with
  | nil => intro a; simp
  | cons b l ih =>
      intro a
      rcases ih (min a b) with h | h
      · rw [List.foldl_cons, h]
        rcases min_choice a b with h' | h' <;> rw [h'] <;> simp
      · exact Or.inr (List.mem_cons_of_mem _ h)

theorem allMin_le {l : List ℝ} {b : ℝ} (h : b ∈ l) : allMin l ≤ b := by
  cases l with
  | nil => cases h
  | cons a l =>
      rcases List.mem_cons.1 h with rfl | h
      · exact (foldl_min_le l b).1
      · exact (foldl_min_le l a).2 b h

theorem allMin_mem {l : List ℝ} (h : l ≠ []) : allMin l ∈ l := by
  cases l with
  | nil => exact absurd rfl h
  | cons a l =>
      rcases foldl_min_mem l a with h | h
      · rw [allMin, h]; exact List.mem_cons_self
      · exact List.mem_cons_of_mem _ h

end DNDSR.Dt
