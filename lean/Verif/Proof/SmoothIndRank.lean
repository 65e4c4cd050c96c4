import Verif.Proof.SmoothInd
import Verif.Proof.LimProc

/-! Helper lemmas for `Verif.Props.SmoothInd`: all ranks. -/

namespace DNDSR.SmoothInd

open DNDSR.Elem DNDSR.IMap DNDSR.MeshAdj DNDSR.Faces
open DNDSR.Flux (nSides at64_ok firstSide isSlot_of lt_of_isSlot nSides_eq)
open DNDSR.Sweep (Mates loc loc_eq mate_is mate_ne row_of own_index own_of_lt nOwn_le is_own_add own_lt mate_place mate_lt owner)
open DNDSR.RecIt (unInit_ne)

variable {N V : Nat}
variable {cl nl : List Nat} {gc : GOM} {ranks : List RankIn} {outs : List RankOut} {rs : List (Rk N V)} {P : Prob N V}

theorem rank_get (h : OnMesh cl nl gc ranks outs rs P) {r : Nat} {s : Rk N V} (hs : rs[r]? = some s) : ∃ x, ranks[r]? = some x :=
  ⟨_, List.getElem?_eq_getElem (by rw [← h.size]; exact (List.getElem?_eq_some_iff.1 hs).1)⟩

/-- the faces of an own cell -/
theorem rank_faces (h : OnMesh cl nl gc ranks outs rs P) {r : Nat} {x : RankIn} {s : Rk N V} (hx : ranks[r]? = some x) (hs : rs[r]? = some s) {l : Nat}
    (hl : l < x.nOwn) : ∃ row, idx s.c2f l = .ok row ∧ forRanks (fun _ iFace => faceIn s l iFace) 0 row = .ok (P.faces (before cl r + l)) := by
  have hD := h.dist
  have hN := h.num
  have hE := h.orient
  have hM := h.mates
  have hH := hD.holds r x hx
  obtain ⟨o, ho⟩ := rank_of hN hx
  obtain ⟨hi, hoi⟩ := is_own_add hH hl
  obtain ⟨row, hrow, hlen⟩ := row_of hD hN hx ho hi hoi
  refine ⟨row, (idx_ok_iff _ _ _).2 (by rw [(h.faces r o s ho hs).2]; exact hrow), ?_⟩
  generalize hii : before cl r + l = i at *
  obtain ⟨ys, e, ly, hv⟩ := N2C.forRanks_all (fun _ iFace => faceIn s l iFace) (fun j _ v => v = P.face i j) row (by
    intro j e he
    have hj : j < nSides P.G i := by rw [← hlen]; exact (List.getElem?_eq_some_iff.1 he).1
    obtain ⟨a, ha⟩ := isSlot_of (per := P.per) hj
    obtain ⟨v, f, h1, hn, hf⟩ := own_face hN hx ho hi hoi ha
    have : e = (v : Int) := gives_unique ⟨row, hrow, he⟩ h1
    subst this
    have hq := hN.range i j a ha
    have hd := h.byFace r o s _ v ho hs hn hq
    obtain ⟨⟨l1, e1, h4⟩, h5⟩ := hE.face r x o _ _ f hx ho hq hn hf
    obtain ⟨hs1, b, hb⟩ := hE.slot _ hq
    have hf' : at64 s.faces (v : Int) = .ok f := by rw [(h.faces r o s ho hs).1]; exact at64_ok hf
    refine ⟨_, ?_, rfl⟩
    by_cases hfs : P.E (P.F i j) = (i, j)
    · have hll : l1 = l := by rw [hfs] at h4; exact is_unique hH h4 hi
      subst hll
      have hside : firstSide P.E P.F i j = true := by simp [firstSide, hfs]
      rcases h5 with ⟨h5, _, h6⟩ | ⟨l', i', j', b', e', h6, hb', hne', h7⟩
      · have hmt : P.mate i j = none := by
          cases hmt : P.mate i j with
          | none => rfl
          | some i' =>
              obtain ⟨j', b', hb', e', hne⟩ := (hM i j a ha i').1 hmt
              exact absurd (h6 i' j' b' hb' e') (by rw [hfs]; exact hne)
        simp only [faceIn, hf', Res.ok_bind, e1, true_or, Res.assert_true _ trivial, if_true, h5, ne_eq, not_true_eq_false, if_false, at64_ok hd, Prob.face, hmt,
          Option.map_none, hside, decide_true]
      · have hmt : P.mate i j = some i' := (hM i j a ha i').2 ⟨j', b', hb', h7, by rw [hfs] at hne'; exact hne'⟩
        have hne : ((l1 : Int) : Int) ≠ (l' : Int) := by
          subst hii
          have := (mate_place h.dist h.num h.mates hx hl hj hmt).2.1
          rw [loc_eq hH h6] at this
          omega
        have hc := at64_ok (h.byCell r x s i' l' hx hs h6)
        simp only [faceIn, hf', Res.ok_bind, e1, true_or, Res.assert_true _ trivial, if_true, e', ne_eq, unInit_ne l', not_false_eq_true,
          at64_ok hd, hc, hne, Prob.face, hmt, Option.map_some, hside, decide_true, decide_false, Bool.not_false]
    · have hne : l1 ≠ l := by
        rintro rfl
        have := is_inj hH h4 hi
        refine hfs ?_
        have h6 : (P.E (P.F i j)).2 = j := by
          rw [this] at hb hs1
          exact slots_apart hD hb ha ((hN.iff i _ i j b a hb ha).1 hs1)
        exact Prod.ext this h6
      have hne1 : ¬ ((l1 : Int) = (l : Int)) := by omega
      have hside : firstSide P.E P.F i j = false := by simp [firstSide, hfs]
      have hmt : P.mate i j = some (P.E (P.F i j)).1 := (hM i j a ha _).2 ⟨_, b, hb, hs1, hfs⟩
      have hsnd : f.second = (l : Int) := by
        rcases h5 with ⟨_, _, h6⟩ | ⟨l', i', j', b', e', h6, hb', hne', h7⟩
        · exact absurd (h6 i j a ha rfl).symm hfs
        · have : P.mate (P.E (P.F i j)).1 (P.E (P.F i j)).2 = some i' := (hM _ _ b hb i').2 ⟨j', b', hb', by rw [hs1]; exact h7, hne'⟩
          have h8 : P.mate (P.E (P.F i j)).1 (P.E (P.F i j)).2 = some i := (hM _ _ b hb i).2 ⟨j, a, ha, hs1.symm, fun e => hfs e.symm⟩
          rw [h8] at this
          cases this
          rw [e', is_unique hH h6 hi]
      have hc := at64_ok (h.byCell r x s _ l1 hx hs h4)
      simp only [faceIn, hf', Res.ok_bind, e1, hsnd, or_true, true_or, Res.assert_true _ trivial, hne1, if_false, if_true, ne_eq, unInit_ne l1,
        not_false_eq_true, at64_ok hd, hc, Prob.face, hmt, Option.map_some, hside, decide_true, decide_false, Bool.not_false, Bool.not_true])
  rw [e]
  refine congrArg Res.ok ?_
  refine List.ext_getElem ?_ ?_
  · rw [ly, hlen, Prob.faces, List.length_map, List.length_range]
  · intro j h1 h2
    rw [hv j _ _ (List.getElem?_eq_getElem (by omega)) (List.getElem?_eq_getElem h1)]
    simp [Prob.faces]

/-- what is done in each cell decides what the procedure gives -/
theorem indicator_gives (cell : CellIn N V → List (FaceIn N V) → Res ℝ) (P : Prob N V) (σ : Nat → ℝ)
    (h : ∀ i, i < P.G.length → cell (P.C i) (P.faces i) = .ok (σ i)) : Gives (indicator cell) P σ := by
  intro cl nl gc ranks outs rs hM r s hs
  obtain ⟨x, hx⟩ := rank_get hM hs
  have hH := hM.dist.holds r x hx
  have hn := hM.own r x s hx hs
  obtain ⟨ys, e, ly, hv⟩ := N2C.forRanks_all (fun _ iCell => do
    let c2f ← idx s.c2f iCell
    let C ← idx s.cells iCell
    let fs ← forRanks (fun _ iFace => faceIn s iCell iFace) 0 c2f
    cell C fs) (fun _ l v => v = σ (before cl r + l)) (List.range s.n) (by
    intro j l hl
    have hl' : l < x.nOwn := by
      have := List.mem_range.1 (List.mem_of_getElem? hl)
      omega
    obtain ⟨row, r1, r2⟩ := rank_faces hM hx hs hl'
    obtain ⟨hi, hoi⟩ := is_own_add hH hl'
    have hC : idx s.cells l = .ok (P.C (before cl r + l)) := (idx_ok_iff _ _ _).2 (hM.byCell r x s _ _ hx hs hi)
    refine ⟨_, ?_, rfl⟩
    simp only [r1, hC, r2, Res.ok_bind]
    exact h _ (own_lt hM.dist hoi))
  refine ⟨ys, e, by rw [ly, List.length_range], fun i hoi => ?_⟩
  obtain ⟨hi, hl⟩ := own_index hH hoi
  have hlt : ((i : Int) - before cl r).toNat < ys.length := by rw [ly, List.length_range]; omega
  rw [List.getElem?_eq_getElem hlt, hv _ _ _ (List.getElem?_range (by omega)) (List.getElem?_eq_getElem hlt)]
  have hb := hoi.2.1
  refine congrArg some (congrArg σ ?_)
  omega

end DNDSR.SmoothInd
