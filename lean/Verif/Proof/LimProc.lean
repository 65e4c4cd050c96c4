import Verif.Proof.LimProcCell

/-! Helper lemmas for `Verif.Props.LimProc`: all ranks. -/

namespace DNDSR.LimProc

open DNDSR.Elem DNDSR.IMap DNDSR.MeshAdj DNDSR.Faces
open DNDSR.Flux (nSides at64_ok firstSide isSlot_of lt_of_isSlot nSides_eq)
open DNDSR.Sweep (Mates loc loc_eq mate_is mate_ne row_of own_index own_of_lt nOwn_le is_own_add own_lt mate_place mate_lt owner)
open DNDSR.RecIt (unInit_ne own_pos sweep_map getD_some)
open Matrix

variable {N V : Nat} {c : Ctl}
variable {cl nl : List Nat} {gc : GOM} {ranks : List RankIn} {outs : List RankOut} {rs : List (Rk N V)} {P : Prob N V}

/-- what cell `i` sees through its face `j` -/
def Prob.faceAt (P : Prob N V) (X : Nat → Matrix (Fin N) (Fin V) ℝ) (i j : Nat) : Option (FaceIn N V) :=
  (P.mate i j).map fun i' => ⟨P.into i j, P.outOf i j, X i', P.left i j i', P.right i j i', P.ν (P.F i j)⟩

def Prob.facesAt (P : Prob N V) (X : Nat → Matrix (Fin N) (Fin V) ℝ) (i : Nat) : List (Option (FaceIn N V)) := (List.range (nSides P.G i)).map (P.faceAt X i)

theorem rank_get (h : OnMesh cl nl gc ranks outs rs P) {r : Nat} {s : Rk N V} (hs : rs[r]? = some s) : ∃ x, ranks[r]? = some x :=
  ⟨_, List.getElem?_eq_getElem (by rw [← h.size]; exact (List.getElem?_eq_some_iff.1 hs).1)⟩

/-- the faces of an own cell -/
theorem rank_faces (h : OnMesh cl nl gc ranks outs rs P) {vec : Rk N V → List (Matrix (Fin N) (Fin V) ℝ)} {X : Nat → Matrix (Fin N) (Fin V) ℝ}
    (hX : Has cl ranks rs vec X) {r : Nat} {x : RankIn} {s : Rk N V} (hx : ranks[r]? = some x) (hs : rs[r]? = some s) {l : Nat} (hl : l < x.nOwn) :
    ∃ row, idx s.sys.c2f l = .ok row ∧ forRanks (fun _ iFace => faceIn s.sys s.u (vec s) l iFace) 0 row = .ok (P.facesAt X (before cl r + l)) := by
  have hD := h.dist
  have hN := h.num
  have hE := h.orient
  have hM := h.mates
  have hH := hD.holds r x hx
  obtain ⟨o, ho⟩ := rank_of hN hx
  obtain ⟨hi, hoi⟩ := is_own_add hH hl
  obtain ⟨row, hrow, hlen⟩ := row_of hD hN hx ho hi hoi
  refine ⟨row, (idx_ok_iff _ _ _).2 (by rw [(h.faces r o s ho hs).2]; exact hrow), ?_⟩
  have hul : idx s.u l = .ok (P.U (before cl r + l)) := (idx_ok_iff _ _ _).2 (h.means r x s _ _ hx hs hi)
  generalize hii : before cl r + l = i at *
  obtain ⟨ys, e, ly, hv⟩ := N2C.forRanks_all (fun _ iFace => faceIn s.sys s.u (vec s) l iFace) (fun j _ v => v = P.faceAt X i j) row (by
    intro j e he
    have hj : j < nSides P.G i := by rw [← hlen]; exact (List.getElem?_eq_some_iff.1 he).1
    obtain ⟨a, ha⟩ := isSlot_of (per := P.per) hj
    obtain ⟨v, f, h1, hn, hf⟩ := own_face hN hx ho hi hoi ha
    have : e = (v : Int) := gives_unique ⟨row, hrow, he⟩ h1
    subst this
    have hq := hN.range i j a ha
    obtain ⟨hnm, hsec⟩ := h.byFace r o s _ v ho hs hn hq
    obtain ⟨⟨l1, e1, h4⟩, h5⟩ := hE.face r x o _ _ f hx ho hq hn hf
    obtain ⟨hs1, b, hb⟩ := hE.slot _ hq
    have hf' : at64 s.sys.faces (v : Int) = .ok f := by rw [(h.faces r o s ho hs).1]; exact at64_ok hf
    refine ⟨_, ?_, rfl⟩
    by_cases hfs : P.E (P.F i j) = (i, j)
    · have hll : l1 = l := by rw [hfs] at h4; exact is_unique hH h4 hi
      subst hll
      have hside : firstSide P.E P.F i j = true := by simp [firstSide, hfs]
      rcases h5 with ⟨h5, _, h6⟩ | ⟨l', i', j', b', e', h6, hb', hne', h7⟩
      · have hmt : P.mate i j = none := by
          cases hmt : P.mate i j with
          | none => rfl
          | some i' =>
              obtain ⟨j', b', hb', e', hne⟩ := (hM i j a ha i').1 hmt
              exact absurd (h6 i' j' b' hb' e') (by rw [hfs]; exact hne)
        simp only [faceIn, hf', Res.ok_bind, e1, true_or, Res.assert_true _ trivial, if_true, h5, ne_eq, not_true_eq_false, if_false, Prob.faceAt, hmt, Option.map_none]
      · have hmt : P.mate i j = some i' := (hM i j a ha i').2 ⟨j', b', hb', h7, by rw [hfs] at hne'; exact hne'⟩
        have hne : ((l1 : Int) : Int) ≠ (l' : Int) := by
          subst hii
          have := (mate_place h.dist h.num h.mates hx hl hj hmt).2.1
          rw [loc_eq hH h6] at this
          omega
        have hx' := at64_ok (hX r x s i' l' hx hs h6)
        have hu' := at64_ok (h.means r x s i' l' hx hs h6)
        simp only [faceIn, getSecondary, hf', Res.ok_bind, e1, true_or, Res.assert_true _ trivial, if_true, e', ne_eq, unInit_ne l', not_false_eq_true,
          at64_ok hnm, at64_ok hsec, or_true, hx', hu', hul, hne, if_false, Prob.faceAt, hmt, Option.map_some, hside, Prob.into, Prob.outOf, Prob.left, Prob.right]
    · have hne : l1 ≠ l := by
        rintro rfl
        have := is_inj hH h4 hi
        refine hfs ?_
        have h6 : (P.E (P.F i j)).2 = j := by
          rw [this] at hb hs1
          exact slots_apart hD hb ha ((hN.iff i _ i j b a hb ha).1 hs1)
        exact Prod.ext this h6
      have hne1 : ¬ ((l1 : Int) = (l : Int)) := by omega
      have hside : firstSide P.E P.F i j = false := by simp [firstSide, hfs]
      have hmt : P.mate i j = some (P.E (P.F i j)).1 := (hM i j a ha _).2 ⟨_, b, hb, hs1, hfs⟩
      have hsnd : f.second = (l : Int) := by
        rcases h5 with ⟨_, _, h6⟩ | ⟨l', i', j', b', e', h6, hb', hne', h7⟩
        · exact absurd (h6 i j a ha rfl).symm hfs
        · have : P.mate (P.E (P.F i j)).1 (P.E (P.F i j)).2 = some i' := (hM _ _ b hb i').2 ⟨j', b', hb', by rw [hs1]; exact h7, hne'⟩
          have h8 : P.mate (P.E (P.F i j)).1 (P.E (P.F i j)).2 = some i := (hM _ _ b hb i).2 ⟨j, a, ha, hs1.symm, fun e => hfs e.symm⟩
          rw [h8] at this
          cases this
          rw [e', is_unique hH h6 hi]
      have hx' := at64_ok (hX r x s _ l1 hx hs h4)
      have hu' := at64_ok (h.means r x s _ l1 hx hs h4)
      simp only [faceIn, getSecondary, hf', Res.ok_bind, e1, hsnd, or_true, true_or, Res.assert_true _ trivial, hne1, if_false, if_true, ne_eq, unInit_ne l1,
        not_false_eq_true, at64_ok hnm, at64_ok hsec, hx', hu', hul, Prob.faceAt, hmt, Option.map_some, hside, Prob.into, Prob.outOf, Prob.left, Prob.right, Bool.false_eq_true])
  rw [e]
  refine congrArg Res.ok ?_
  refine List.ext_getElem ?_ ?_
  · rw [ly, hlen, Prob.facesAt, List.length_map, List.length_range]
  · intro j h1 h2
    rw [hv j _ _ (List.getElem?_eq_getElem (by omega)) (List.getElem?_eq_getElem h1)]
    simp [Prob.facesAt]

/-- an operation that changes `uRecNew` and `uRecBuf` only -/
theorem each_rank (h : OnMesh cl nl gc ranks outs rs P) (step : Rk N V → Res (Rk N V)) (good : Nat → RankIn → Rk N V → Rk N V → Prop)
    (hstep : ∀ r x s, ranks[r]? = some x → rs[r]? = some s → ∃ s', step s = .ok s' ∧ s'.sys = s.sys ∧ s'.u = s.u ∧ s'.si = s.si ∧
      (s'.x.length = x.cells.length ∧ s'.y.length = x.cells.length) ∧ good r x s s') :
    ∃ rs', forRanks (fun _ s => step s) 0 rs = .ok rs' ∧ OnMesh cl nl gc ranks outs rs' P ∧
      ∀ (r : Nat) s', rs'[r]? = some s' → ∃ x s, ranks[r]? = some x ∧ rs[r]? = some s ∧ good r x s s' := by
  obtain ⟨rs', e1, l1, h1⟩ := N2C.forRanks_all (fun _ s => step s)
    (fun r s s' => ∀ x, ranks[r]? = some x → s'.sys = s.sys ∧ s'.u = s.u ∧ s'.si = s.si ∧
      (s'.x.length = x.cells.length ∧ s'.y.length = x.cells.length) ∧ good r x s s') rs (by
    intro r s hs
    obtain ⟨x, hx⟩ := rank_get h hs
    obtain ⟨s', h1, h2⟩ := hstep r x s hx hs
    refine ⟨s', h1, fun x' hx' => ?_⟩
    rw [hx] at hx'; cases hx'
    exact h2)
  have hback : ∀ {r : Nat} {s' : Rk N V}, rs'[r]? = some s' → ∃ x s, ranks[r]? = some x ∧ rs[r]? = some s ∧ s'.sys = s.sys ∧ s'.u = s.u ∧ s'.si = s.si ∧
      (s'.x.length = x.cells.length ∧ s'.y.length = x.cells.length) ∧ good r x s s' := by
    intro r s' hs'
    have hr : r < rs.length := by rw [← l1]; exact (List.getElem?_eq_some_iff.1 hs').1
    have hs := List.getElem?_eq_getElem hr
    obtain ⟨x, hx⟩ := rank_get h hs
    exact ⟨x, _, hx, hs, h1 r _ s' hs hs' x hx⟩
  refine ⟨rs', e1, ⟨h.dist, h.num, h.orient, h.mates, by rw [l1, h.size], ?_, ?_, ?_, ?_, ?_, ?_⟩, ?_⟩
  · intro r x s' hx hs'
    obtain ⟨x', s, hx', hs, e, _⟩ := hback hs'
    rw [e]; exact h.own r x s hx hs
  · intro r o s' ho hs'
    obtain ⟨x', s, hx', hs, e, _⟩ := hback hs'
    rw [e]; exact h.faces r o s ho hs
  · intro r o s' q v ho hs'
    obtain ⟨x', s, hx', hs, e, _⟩ := hback hs'
    rw [e]; exact h.byFace r o s q v ho hs
  · intro r i s' ho hs'
    obtain ⟨x', s, hx', hs, _, _, e, _⟩ := hback hs'
    rw [e]; exact h.bySelf r i s ho hs
  · intro r x s' i l hx hs'
    obtain ⟨x', s, hx', hs, _, e, _⟩ := hback hs'
    rw [e]; exact h.means r x s i l hx hs
  · intro r x s' hx hs'
    obtain ⟨x', s, hx', hs, _, _, _, e, _⟩ := hback hs'
    rw [hx] at hx'; cases hx'
    exact e
  · intro r s' hs'
    obtain ⟨x', s, hx', hs, _, _, _, _, e⟩ := hback hs'
    exact ⟨x', s, hx', hs, e⟩

/-- the same for an operation that cannot fail -/
theorem map_rank (h : OnMesh cl nl gc ranks outs rs P) (f : Rk N V → Rk N V) (hf : ∀ s, (f s).sys = s.sys ∧ (f s).u = s.u ∧ (f s).si = s.si)
    (hl : ∀ (r : Nat) (x : RankIn) (s : Rk N V), ranks[r]? = some x → rs[r]? = some s → (f s).x.length = x.cells.length ∧ (f s).y.length = x.cells.length) :
    OnMesh cl nl gc ranks outs (rs.map f) P := by
  have hb : ∀ {r : Nat} {s' : Rk N V}, (rs.map f)[r]? = some s' → ∃ s, rs[r]? = some s ∧ f s = s' := by
    intro r s' hs'
    rw [List.getElem?_map] at hs'
    cases hs : rs[r]? with
    | none => rw [hs] at hs'; cases hs'
    | some s => rw [hs] at hs'; exact ⟨s, rfl, Option.some.inj hs'⟩
  refine ⟨h.dist, h.num, h.orient, h.mates, by rw [List.length_map, h.size], ?_, ?_, ?_, ?_, ?_, ?_⟩
  · intro r x s' hx hs'
    obtain ⟨s, hs, rfl⟩ := hb hs'
    rw [(hf s).1]; exact h.own r x s hx hs
  · intro r o s' ho hs'
    obtain ⟨s, hs, rfl⟩ := hb hs'
    rw [(hf s).1]; exact h.faces r o s ho hs
  · intro r o s' q v ho hs'
    obtain ⟨s, hs, rfl⟩ := hb hs'
    rw [(hf s).1]; exact h.byFace r o s q v ho hs
  · intro r i s' ho hs'
    obtain ⟨s, hs, rfl⟩ := hb hs'
    rw [(hf s).2.2]; exact h.bySelf r i s ho hs
  · intro r x s' i l hx hs'
    obtain ⟨s, hs, rfl⟩ := hb hs'
    rw [(hf s).2.1]; exact h.means r x s i l hx hs
  · intro r x s' hx hs'
    obtain ⟨s, hs, rfl⟩ := hb hs'
    exact hl r x s hx hs

/-- the effect of a pull -/
theorem pull_spec (h : OnMesh cl nl gc ranks outs rs P) {X Y : Nat → Matrix (Fin N) (Fin V) ℝ} (hX : Has cl ranks rs (·.x) X) (hY : HasOwn cl rs (·.y) Y) :
    ∃ rs', pullY gc rs = .ok rs' ∧ OnMesh cl nl gc ranks outs rs' P ∧ Has cl ranks rs' (·.y) Y ∧ Has cl ranks rs' (·.x) X := by
  obtain ⟨rs', e1, g1, h1⟩ := each_rank h (fun s => do
    let g ← forRanks (fun _ q => do
      let p ← gc.search q
      match p with
      | none => .abort
      | some p => do
        let t ← idx rs p.1
        at64 t.y p.2) 0 s.sys.ghosts
    .ok { s with y := s.y.take s.sys.n ++ g })
    (fun r x s s' => s'.x = s.x ∧ ∀ l i : Nat, Is cl r x l i → s'.y[l]? = some (Y i)) (by
    intro r x s hx hs
    have hH := h.dist.holds r _ hx
    obtain ⟨hn, hgh⟩ := h.own r _ s hx hs
    obtain ⟨hlx, hly⟩ := h.lens r _ s hx hs
    obtain ⟨g, eg, lg, hg⟩ := N2C.forRanks_all (fun _ q => do
      let p ← gc.search q
      match p with
      | none => .abort
      | some p => do
        let t ← idx rs p.1
        at64 t.y p.2) (fun _ q v => v = Y q.toNat) s.sys.ghosts (by
      intro k q hq
      rw [hgh] at hq
      have hlt := (List.getElem?_eq_some_iff.1 hq).1
      obtain ⟨i, hi, hgl⟩ := is_of_lt hH (l := x.nOwn + k) (by rw [hH.size]; simp only [RankIn.nOwn]; omega)
      have hno : ¬ Owns cl r i := fun h => by have := (is_own hH hi).2 h; omega
      have hqi : q = (i : Int) := by
        rcases hi with ⟨h, _⟩ | ⟨_, k', hk', n, hsz, e⟩ | ⟨_, _, e⟩
        · exact absurd h hno
        · rw [hH.cellMap.faithful.size] at hsz
          have := Option.some.inj hsz
          have : k' = k := by simp only [RankIn.nOwn] at e; omega
          subst this
          rw [hq] at hk'; exact Option.some.inj hk'
        · omega
      subst hqi
      obtain ⟨ρ, hρ⟩ := owns_exists hgl.1 hgl.2
      rw [search_of_owns h.dist.built hρ]
      simp only [Res.ok_bind]
      have hρl : ρ < rs.length := by rw [h.size, h.dist.nranks]; exact hρ.1
      have ht := List.getElem?_eq_getElem hρl
      rw [(idx_ok_iff _ _ _).2 ht]
      simp only [Res.ok_bind]
      have := hY ρ _ i ht hρ
      refine ⟨Y i, ?_, by rw [Int.toNat_natCast]⟩
      have hge : (0 : Int) ≤ (i : Int) - before cl ρ := by obtain ⟨_, h, _⟩ := hρ; omega
      simp only [at64, if_pos hge]
      exact (idx_ok_iff _ _ _).2 this)
    have htl : (s.y.take s.sys.n).length = x.nOwn := by
      rw [List.length_take, hn, hly]
      have := nOwn_le hH
      omega
    refine ⟨{ s with y := s.y.take s.sys.n ++ g }, by simp only [eg, Res.ok_bind], rfl, rfl, rfl, ⟨hlx, ?_⟩, rfl, ?_⟩
    · show (s.y.take s.sys.n ++ g).length = _
      rw [List.length_append, htl, lg, hgh, hH.size]; simp only [RankIn.nOwn]
    intro l i hi
    show (s.y.take s.sys.n ++ g)[l]? = _
    by_cases hoi : Owns cl r i
    · have hl := (is_own hH hi).2 hoi
      rw [List.getElem?_append_left (by omega), hn, List.getElem?_take_of_lt hl]
      have := hY r s i hs hoi
      rwa [is_unique hH (own_index hH hoi).1 hi] at this
    · have hl : ¬ l < x.nOwn := fun h => hoi ((is_own hH hi).1 h)
      rw [List.getElem?_append_right (by omega), htl]
      rcases hi with ⟨h, _⟩ | ⟨_, k, hk, n, hsz, e⟩ | ⟨_, _, e⟩
      · exact absurd h hoi
      · rw [hH.cellMap.faithful.size] at hsz
        have := Option.some.inj hsz
        have : l - x.nOwn = k := by simp only [RankIn.nOwn] at e ⊢; omega
        rw [this]
        have hkg : k < g.length := by rw [lg, hgh]; exact (List.getElem?_eq_some_iff.1 hk).1
        have hgk := List.getElem?_eq_getElem hkg
        rw [hgk, hg k _ _ (by rw [hgh]; exact hk) hgk, Int.toNat_natCast]
      · omega)
  refine ⟨rs', e1, g1, ?_, ?_⟩
  · intro r x s' i l hx hs' hi
    obtain ⟨x', s, hx', _, _, hg⟩ := h1 r s' hs'
    rw [hx] at hx'; cases hx'
    exact hg l i hi
  · intro r x s' i l hx hs' hi
    obtain ⟨x', s, hx', hs, e, _⟩ := h1 r s' hs'
    show s'.x[l]? = _
    rw [e]; exact hX r x s i l hx hs hi

/-- a loop over own cells that writes `uRecNew`, and the exchange -/
theorem sweep_pull (h : OnMesh cl nl gc ranks outs rs P) {X Y : Nat → Matrix (Fin N) (Fin V) ℝ} (hX : Has cl ranks rs (·.x) X)
    (body : Rk N V → Nat → Res (Matrix (Fin N) (Fin V) ℝ)) (fin : Rk N V → List (Matrix (Fin N) (Fin V) ℝ) → Rk N V)
    (hfin : ∀ s y, (fin s y).sys = s.sys ∧ (fin s y).u = s.u ∧ (fin s y).si = s.si ∧ (fin s y).x = s.x ∧ (fin s y).y = y)
    (hb : ∀ (r : Nat) (x : RankIn) (s : Rk N V) (l : Nat), ranks[r]? = some x → rs[r]? = some s → l < x.nOwn → body s l = .ok (Y (before cl r + l))) :
    ∃ rs' rs'', forRanks (fun _ s => do
        let y ← RecIt.sweep (fun iCell _ => body s iCell) (List.range s.sys.n) s.y
        .ok (fin s y)) 0 rs = .ok rs' ∧ pullY gc rs' = .ok rs'' ∧
      OnMesh cl nl gc ranks outs rs'' P ∧ Has cl ranks rs'' (·.y) Y ∧ Has cl ranks rs'' (·.x) X := by
  obtain ⟨rs', e1, g1, h1⟩ := each_rank h (fun s => do
      let y ← RecIt.sweep (fun iCell _ => body s iCell) (List.range s.sys.n) s.y
      .ok (fin s y)) (fun r x s s' => s'.x = s.x ∧ ∀ l < x.nOwn, s'.y[l]? = some (Y (before cl r + l))) (by
    intro r x s hx hs
    obtain ⟨hn, _⟩ := h.own r x s hx hs
    obtain ⟨hlx, hly⟩ := h.lens r x s hx hs
    have hle := nOwn_le (h.dist.holds r x hx)
    obtain ⟨y, e, l1, _, hv⟩ := sweep_map (fun l => body s l) (fun l => Y (before cl r + l)) s.sys.n s.y (by omega)
      (fun l hl => hb r x s l hx hs (by omega))
    obtain ⟨f1, f2, f3, f4, f5⟩ := hfin s y
    refine ⟨fin s y, by simp only [e, Res.ok_bind], f1, f2, f3, ⟨by rw [f4]; exact hlx, by rw [f5, l1]; exact hly⟩, f4, fun l hl => ?_⟩
    rw [f5]
    exact getD_some (by omega) (hv l (by omega)))
  have hX' : Has cl ranks rs' (·.x) X := by
    intro r x s' i l hx hs' hi
    obtain ⟨x', s, hx', hs, e, _⟩ := h1 r s' hs'
    show s'.x[l]? = _
    rw [e]; exact hX r x s i l hx hs hi
  have hY' : HasOwn cl rs' (·.y) Y := by
    intro r s' i hs' hoi
    obtain ⟨x, s, hx, hs, _, e⟩ := h1 r s' hs'
    have := e _ (own_index (h.dist.holds r x hx) hoi).2
    rwa [own_pos hoi] at this
  obtain ⟨rs'', e2, g2, k1, k2⟩ := pull_spec g1 hX' hY'
  exact ⟨rs', rs'', e1, e2, g2, k1, k2⟩

theorem copyBack_spec (h : OnMesh cl nl gc ranks outs rs P) {X Y : Nat → Matrix (Fin N) (Fin V) ℝ} (hX : Has cl ranks rs (·.x) X) (hY : Has cl ranks rs (·.y) Y)
    (put : Bool) : OnMesh cl nl gc ranks outs (copyBack put rs) P ∧ Has cl ranks (copyBack put rs) (·.y) Y ∧
      Has cl ranks (copyBack put rs) (·.x) (if put then X else Y) := by
  cases put with
  | true => exact ⟨h, hY, hX⟩
  | false =>
      refine ⟨map_rank h _ (fun s => ⟨rfl, rfl, rfl⟩) (fun r x s hx hs => ⟨(h.lens r x s hx hs).2, (h.lens r x s hx hs).2⟩), ?_, ?_⟩ <;>
      · intro r x s' i l hx hs' hi
        have hs'' : (rs.map fun s => { s with x := s.y })[r]? = some s' := hs'
        rw [List.getElem?_map] at hs''
        cases hs : rs[r]? with
        | none => rw [hs] at hs''; cases hs''
        | some s =>
            rw [hs] at hs''
            cases hs''
            exact hY r x s i l hx hs hi

/-- what is read of an own cell -/
theorem own_reads (h : OnMesh cl nl gc ranks outs rs P) {vec : Rk N V → List (Matrix (Fin N) (Fin V) ℝ)} {X : Nat → Matrix (Fin N) (Fin V) ℝ}
    (hX : Has cl ranks rs vec X) {r : Nat} {x : RankIn} {s : Rk N V} (hx : ranks[r]? = some x) (hs : rs[r]? = some s) {l : Nat} (hl : l < x.nOwn) :
    idx s.si l = .ok (P.si (before cl r + l)) ∧ idx (vec s) l = .ok (X (before cl r + l)) := by
  have hH := h.dist.holds r x hx
  obtain ⟨hi, hoi⟩ := is_own_add hH hl
  refine ⟨?_, (idx_ok_iff _ _ _).2 (hX r x s _ _ hx hs hi)⟩
  have := h.bySelf r _ s hoi hs
  rw [is_unique hH (own_index hH hoi).1 hi] at this
  exact (idx_ok_iff _ _ _).2 this

theorem limited_not {ifAll : Bool} {i : Nat} : ((!ifAll) = true ∧ P.si i < c.threshold) ↔ ¬ P.Limited c ifAll i := by
  unfold Prob.Limited
  cases ifAll <;> simp

/-- `DoLimiterWBAP_C` on all ranks -/
theorem limiterC_gives (hg : Good c N) (E : Eig V) (ifAll : Bool) {X Y : Nat → Matrix (Fin N) (Fin V) ℝ}
    (h0 : ∀ i, ¬ P.Limited c ifAll i → Y i = X i)
    (h1 : ∀ i, P.Limited c ifAll i → ∀ new, cellC c E (P.facesAt X i) (X i) c.maxOrder ((P.facesAt X i).map fun _ _ => none) new = .ok (Y i)) :
    Gives (fun gc put => limiterC gc c E ifAll put) P X Y := by
  intro cl nl gc ranks outs rs put h hX
  obtain ⟨rs1, rs2, e1, e2, g2, k1, k2⟩ := sweep_pull h (Y := Y) hX (fun s l => bodyC c E s.sys ifAll s.u s.x s.y s.si l) (fun s y => { s with y := y })
    (fun s y => ⟨rfl, rfl, rfl, rfl, rfl⟩) (by
    intro r x s l hx hs hl
    obtain ⟨r1, r2⟩ := own_reads h hX hx hs hl
    obtain ⟨row, r3, r4⟩ := rank_faces h hX hx hs hl
    have hy : idx s.y l = .ok s.y[l]! := by
      have : l < s.y.length := by
        have := nOwn_le (h.dist.holds r x hx)
        have := (h.lens r x s hx hs).2
        omega
      rw [idx_ok_iff, List.getElem?_eq_getElem this, List.getElem!_eq_getElem?_getD, List.getElem?_eq_getElem this]; rfl
    simp only [bodyC, r1, r2, Res.ok_bind]
    by_cases hL : P.Limited c ifAll (before cl r + l)
    · rw [if_neg (fun h' => limited_not.1 h' hL)]
      simp only [hy, r3, r4, Res.ok_bind]
      exact h1 _ hL _
    · rw [if_pos (limited_not.2 hL), h0 _ hL])
  obtain ⟨a1, a2, a3⟩ := copyBack_spec g2 k2 k1 put
  refine ⟨copyBack put rs2, ?_, a1, a2, a3⟩
  show limiterC gc c E ifAll put rs = _
  simp only [limiterC, e1, e2, Res.ok_bind]

/-- one order of `DoLimiterWBAP_3` at one cell: the rows of degree `q` are those of `Y`, and the others stay -/
structure Stage (c : Ctl) (E : Eig V) (ds : List (Option (FaceIn N V))) (x Y : Matrix (Fin N) (Fin V) ℝ) (W : Nat → Matrix (Fin N) (Fin V) ℝ) (q : Nat) : Prop where
  face : ∀ (j : Nat) (d : FaceIn N V), ds[j]? = some (some d) → candidate c E d (modes c.dim (q - 1)) (width c.dim q)
    (rowsOf (modes c.dim (q - 1)) (width c.dim q) x) d.other = .ok (rowsOf (modes c.dim (q - 1)) (width c.dim q) (W j))
  cell : multiway c (rowsOf (modes c.dim (q - 1)) (width c.dim q) x) (outsOf ds W (modes c.dim (q - 1)) (width c.dim q)) =
    .ok (rowsOf (modes c.dim (q - 1)) (width c.dim q) Y)
  rest : ∀ k : Fin N, ¬ Degree c.dim q k.1 → Y k = x k

theorem forRanks_list {α β : Type} (f : α → Res β) (g : α → β) (l : List α) (h : ∀ y ∈ l, f y = .ok (g y)) : forRanks (fun _ y => f y) 0 l = .ok (l.map g) := by
  obtain ⟨ys, e, ly, hv⟩ := N2C.forRanks_all (fun _ y => f y) (fun _ y v => v = g y) l (fun k y hy => ⟨_, h y (List.mem_of_getElem? hy), rfl⟩)
  rw [e]
  refine congrArg Res.ok (List.ext_getElem (by simpa using ly) ?_)
  intro k h1 h2
  rw [hv k _ _ (List.getElem?_eq_getElem (by omega)) (List.getElem?_eq_getElem h1)]
  simp

theorem stage_exists (hg : Good c N) (E : Eig V) (ds : List (Option (FaceIn N V))) (x : Matrix (Fin N) (Fin V) ℝ) {q : Nat} (h1 : 1 ≤ q) (h2 : q ≤ c.maxOrder) :
    ∃ Y W, Stage c E ds x Y W q ∧ (do
      let us ← forRanks (fun _ (d : FaceIn N V) => candidate c E d (modes c.dim (q - 1)) (width c.dim q) (rowsOf (modes c.dim (q - 1)) (width c.dim q) x) d.other) 0
        (ds.filterMap fun d => d)
      let out ← multiway c (rowsOf (modes c.dim (q - 1)) (width c.dim q) x) us
      .ok (writeRows (modes c.dim (q - 1)) (width c.dim q) out x)) = .ok Y := by
  have h3 : q ≤ 3 := by have := hg.order; omega
  have hlt := modes_lt hg.dim h1 h3
  have hN : modes c.dim q ≤ N := by rw [hg.size]; exact modes_mono hg.dim h2 hg.order
  have hae : modes c.dim (q - 1) + width c.dim q = modes c.dim q := by unfold width; omega
  have hc : ∀ d : FaceIn N V, ∃ L, candidate c E d (modes c.dim (q - 1)) (width c.dim q) (rowsOf (modes c.dim (q - 1)) (width c.dim q) x) d.other = .ok L :=
    fun d => candidate_total hg E d h1 h3 _ _ _
  choose L hL using hc
  obtain ⟨out, hout⟩ := multiway_total hg h1 h3 (rowsOf (modes c.dim (q - 1)) (width c.dim q) x) ((ds.filterMap fun d => d).map L)
  let W : Nat → Matrix (Fin N) (Fin V) ℝ := fun j => match ds[j]? with
    | some (some d) => writeRows (modes c.dim (q - 1)) (width c.dim q) (L d) 0
    | _ => 0
  have hW : ∀ j d, ds[j]? = some (some d) → rowsOf (modes c.dim (q - 1)) (width c.dim q) (W j) = L d := by
    intro j d hj
    simp only [W, hj]
    exact rowsOf_write (by omega) _ _
  have houts : outsOf ds W (modes c.dim (q - 1)) (width c.dim q) = (ds.filterMap fun d => d).map L := by
    rw [List.map_filterMap, filterMap_range ds _ (fun j => match ds[j]? with
                | some (some _) => some (rowsOf (modes c.dim (q - 1)) (width c.dim q) (W j))
                | _ => none)]
    · rfl
    · intro j hj
      have hdj := List.getElem?_eq_getElem hj
      cases hdv : ds[j] with
      | none => rw [hdj, hdv]; rfl
      | some d =>
          have := hW j d (by rw [hdj, hdv])
          rw [hdj, hdv]
          simp only [Option.map_some, this]
  refine ⟨writeRows (modes c.dim (q - 1)) (width c.dim q) out x, W, ⟨fun j d hj => ?_, ?_, fun k hk => ?_⟩, ?_⟩
  · rw [hL, hW j d hj]
  · rw [houts, hout, rowsOf_write (by omega)]
  · funext v
    unfold writeRows
    rw [dif_neg]
    unfold Degree at hk
    unfold width
    omega
  · rw [forRanks_list _ L _ (fun d _ => hL d), Res.ok_bind, hout, Res.ok_bind]

/-- one order of `DoLimiterWBAP_3` on all ranks -/
theorem order3_gives (hg : Good c N) (E : Eig V) (ifAll : Bool) (h : OnMesh cl nl gc ranks outs rs P) {X Z : Nat → Matrix (Fin N) (Fin V) ℝ}
    (hX : Has cl ranks rs (·.x) X) (hZ : Has cl ranks rs (·.y) Z) {Y : Nat → Matrix (Fin N) (Fin V) ℝ} {q : Nat} (h1 : 1 ≤ q) (h2 : q ≤ c.maxOrder)
    (h0 : ∀ i, ¬ P.Limited c ifAll i → Y i = Z i)
    (hY : ∀ i, P.Limited c ifAll i → (do
      let us ← forRanks (fun _ (d : FaceIn N V) => candidate c E d (modes c.dim (q - 1)) (width c.dim q) (rowsOf (modes c.dim (q - 1)) (width c.dim q) (Z i)) d.other) 0
        ((P.facesAt Z i).filterMap fun d => d)
      let out ← multiway c (rowsOf (modes c.dim (q - 1)) (width c.dim q) (Z i)) us
      .ok (writeRows (modes c.dim (q - 1)) (width c.dim q) out (Z i))) = .ok (Y i)) :
    ∃ rs', order3 gc c E ifAll q rs = .ok rs' ∧ OnMesh cl nl gc ranks outs rs' P ∧ Has cl ranks rs' (·.y) Y ∧ Has cl ranks rs' (·.x) X := by
  have h3 : q ≤ 3 := by have := hg.order; omega
  have hN : modes c.dim q ≤ N := by rw [hg.size]; exact modes_mono hg.dim h2 hg.order
  obtain ⟨rs1, rs2, e1, e2, g2, k1, k2⟩ := sweep_pull h (Y := Y) hX (fun s l => body3 c E s.sys ifAll s.u s.y s.y s.si (modes c.dim (q - 1)) (modes c.dim q) l)
    (fun s y => { s with buf := s.y, y := y }) (fun s y => ⟨rfl, rfl, rfl, rfl, rfl⟩) (by
    intro r x s l hx hs hl
    obtain ⟨r1, r2⟩ := own_reads h hZ hx hs hl
    obtain ⟨row, r3, r4⟩ := rank_faces h hZ hx hs hl
    simp only [body3, r1, r2, Res.ok_bind]
    by_cases hL : P.Limited c ifAll (before cl r + l)
    · rw [if_neg (fun h' => limited_not.1 h' hL)]
      simp only [r3, r4, Res.ok_bind, if_pos hN]
      exact hY _ hL
    · rw [if_pos (limited_not.2 hL), h0 _ hL])
  refine ⟨rs2, ?_, g2, k1, k2⟩
  simp only [order3, limits_spec hg.dim h1 h3, Res.ok_bind, e1, e2]

/-- the orders of `DoLimiterWBAP_3`: `Z q` is `uRecNew` before the order `q` -/
theorem orders3_gives (hg : Good c N) (E : Eig V) (ifAll : Bool) {X : Nat → Matrix (Fin N) (Fin V) ℝ} (p : Nat) (hp : p ≤ c.maxOrder) (Z0 : Nat → Matrix (Fin N) (Fin V) ℝ) :
    ∃ Z : Nat → Nat → Matrix (Fin N) (Fin V) ℝ, Z p = Z0 ∧
      (∀ i, ¬ P.Limited c ifAll i → ∀ q, q ≤ p → Z q i = Z0 i) ∧
      (∀ i, P.Limited c ifAll i → ∀ q, 1 ≤ q → q ≤ p → ∃ W, Stage c E (P.facesAt (Z q) i) (Z q i) (Z (q - 1) i) W q) ∧
      ∀ (cl nl : List Nat) (gc : GOM) (ranks : List RankIn) (outs : List RankOut) (rs : List (Rk N V)), OnMesh cl nl gc ranks outs rs P → Has cl ranks rs (·.x) X →
        Has cl ranks rs (·.y) Z0 → ∃ rs', orders3 gc c E ifAll p rs = .ok rs' ∧ OnMesh cl nl gc ranks outs rs' P ∧ Has cl ranks rs' (·.y) (Z 0) ∧ Has cl ranks rs' (·.x) X := by
  classical
  induction p generalizing Z0 with
  | zero =>
      refine ⟨fun _ => Z0, rfl, fun _ _ _ _ => rfl, fun _ _ q h1 h2 => by omega, ?_⟩
      intro cl nl gc ranks outs rs h hX hZ
      exact ⟨rs, rfl, h, hZ, hX⟩
  | succ p ih =>
      have hst := fun i => stage_exists hg E (P.facesAt Z0 i) (Z0 i) (q := p + 1) (by omega) hp
      choose Y W hYs hYr using hst
      let Z1 : Nat → Matrix (Fin N) (Fin V) ℝ := fun i => if P.Limited c ifAll i then Y i else Z0 i
      obtain ⟨Z, z1, z2, z3, z4⟩ := ih (by omega) Z1
      refine ⟨fun q => if q = p + 1 then Z0 else Z q, by simp, ?_, ?_, ?_⟩
      · intro i hi q hq
        by_cases hqe : q = p + 1
        · simp only [hqe, if_true]
        · simp only [if_neg hqe]
          rw [z2 i hi q (by omega)]
          simp only [Z1, if_neg hi]
      · intro i hi q h1 h2
        by_cases hqe : q = p + 1
        · subst hqe
          refine ⟨W i, ?_⟩
          simp only [if_true, Nat.add_sub_cancel, show ¬ (p = p + 1) by omega, if_false, z1, Z1, if_pos hi]
          exact hYs i
        · obtain ⟨W', h'⟩ := z3 i hi q h1 (by omega)
          refine ⟨W', ?_⟩
          simp only [if_neg hqe, show ¬ (q - 1 = p + 1) by omega, if_false]
          exact h'
      · intro cl nl gc ranks outs rs h hX hZ
        obtain ⟨rs1, e1, g1, k1, k2⟩ := order3_gives hg E ifAll h hX hZ (Y := Z1) (q := p + 1) (by omega) hp (fun i hi => by simp only [Z1, if_neg hi])
          (fun i hi => by simp only [Z1, if_pos hi]; exact hYr i)
        obtain ⟨rs2, e2, g2, k3, k4⟩ := z4 cl nl gc ranks outs rs1 g1 k2 k1
        refine ⟨rs2, ?_, g2, ?_, k4⟩
        · simp only [orders3, e1, Res.ok_bind, e2]
        · simpa using k3

/-- `DoLimiterWBAP_3` on all ranks -/
theorem limiter3_gives (hg : Good c N) (E : Eig V) (ifAll : Bool) (P : Prob N V) (X : Nat → Matrix (Fin N) (Fin V) ℝ) :
    ∃ Z : Nat → Nat → Matrix (Fin N) (Fin V) ℝ, Z c.maxOrder = X ∧ (∀ i, ¬ P.Limited c ifAll i → ∀ q, q ≤ c.maxOrder → Z q i = X i) ∧
      (∀ i, P.Limited c ifAll i → ∀ q, 1 ≤ q → q ≤ c.maxOrder → ∃ W, Stage c E (P.facesAt (Z q) i) (Z q i) (Z (q - 1) i) W q) ∧
      Gives (fun gc put => limiter3 gc c E ifAll put) P X (Z 0) := by
  obtain ⟨Z, z1, z2, z3, z4⟩ := orders3_gives (P := P) hg E ifAll (X := X) c.maxOrder le_rfl X
  refine ⟨Z, z1, z2, z3, ?_⟩
  intro cl nl gc ranks outs rs put h hX
  have hm : OnMesh cl nl gc ranks outs (rs.map fun s => { s with y := s.x }) P :=
    map_rank h _ (fun s => ⟨rfl, rfl, rfl⟩) (fun r x s hx hs => ⟨(h.lens r x s hx hs).1, (h.lens r x s hx hs).1⟩)
  have hb : ∀ (r : Nat) (x : RankIn) (s' : Rk N V) (i l : Nat), ranks[r]? = some x → (rs.map fun s => { s with y := s.x })[r]? = some s' →
      LocalName cl r x.cellMap.ghostIndex i l → s'.x[l]? = some (X i) ∧ s'.y[l]? = some (X i) := by
    intro r x s' i l hx hs' hi
    rw [List.getElem?_map] at hs'
    cases hs : rs[r]? with
    | none => rw [hs] at hs'; cases hs'
    | some s =>
        rw [hs] at hs'
        cases hs'
        exact ⟨hX r x s i l hx hs hi, hX r x s i l hx hs hi⟩
  obtain ⟨rs1, e1, g1, k1, k2⟩ := z4 cl nl gc ranks outs _ hm (fun r x s i l hx hs hi => (hb r x s i l hx hs hi).1) (fun r x s i l hx hs hi => (hb r x s i l hx hs hi).2)
  obtain ⟨a1, a2, a3⟩ := copyBack_spec g1 k2 k1 put
  refine ⟨copyBack put rs1, ?_, a1, a2, a3⟩
  show limiter3 gc c E ifAll put rs = _
  simp only [limiter3, e1, Res.ok_bind]

end DNDSR.LimProc
