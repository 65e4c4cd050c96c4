import Verif.Proof.RecIter

/-! Helper lemmas for `Verif.Props.RecIter`: the iterations on one rank of a distributed mesh. -/

namespace DNDSR.RecIt

open DNDSR.Elem DNDSR.IMap DNDSR.MeshAdj DNDSR.Faces
open DNDSR.Flux (nSides at64_ok firstSide isSlot_of lt_of_isSlot nSides_eq)
open DNDSR.Sweep (Mates loc loc_eq mate_is mate_ne row_of own_index own_of_lt nOwn_le is_own_add own_lt mate_place order order_nodup mem_order split_order Seen)
open Matrix

variable {N V : Nat} {K : Type} [Field K]
variable {cl nl : List Nat} {gc : GOM} {ranks : List RankIn} {outs : List RankOut} {rs : List (Rk N V K)} {P : Prob N V K}

theorem unInit_ne (n : Nat) : (n : Int) ≠ unInit := by have := unInit_neg; omega

/-- the loop over the faces of an own cell -/
theorem rank_cell (h : OnMesh cl nl gc ranks outs rs P) {r : Nat} {x : RankIn} {s : Rk N V K} (hx : ranks[r]? = some x) (hs : rs[r]? = some s) {l : Nat}
    (hl : l < x.nOwn) : ∃ row, s.sys.c2f[l]? = some row ∧
      ∀ (inner : Nat → Int → Bool → Int → Matrix (Fin N) (Fin V) K → Res (Matrix (Fin N) (Fin V) K)) (bnd : Int → Matrix (Fin N) (Fin V) K → Res (Matrix (Fin N) (Fin V) K))
        (stp : Nat → Matrix (Fin N) (Fin V) K → Matrix (Fin N) (Fin V) K) (start : Matrix (Fin N) (Fin V) K),
        (∀ j < nSides P.G (before cl r + l), ∀ i', P.mate (before cl r + l) j = some i' → ∀ a,
          inner j (loc x i' : Int) (!firstSide P.E P.F (before cl r + l) j) (P.zone (P.F (before cl r + l) j)) a = .ok (stp j a)) →
        (∀ j < nSides P.G (before cl r + l), P.mate (before cl r + l) j = none → ∀ v : Nat, at64 s.sys.bc v = .ok (P.bc (P.F (before cl r + l) j)) →
          at64 s.sys.bcd v = .ok (P.bcd (P.F (before cl r + l) j)) → ∀ a, bnd v a = .ok (stp j a)) →
        faceLoop s.sys l inner bnd 0 row start = .ok (runFrom stp 0 (nSides P.G (before cl r + l)) start) := by
  have hD := h.dist
  have hN := h.num
  have hE := h.orient
  have hM := h.mates
  have hH := hD.holds r x hx
  obtain ⟨o, ho⟩ := rank_of hN hx
  obtain ⟨hi, hoi⟩ := is_own_add hH hl
  obtain ⟨row, hrow, hlen⟩ := row_of hD hN hx ho hi hoi
  refine ⟨row, by rw [(h.faces r o s ho hs).2]; exact hrow, ?_⟩
  intro inner bnd stp start hin hbn
  rw [← hlen]
  refine faceLoop_spec s.sys l inner bnd stp row 0 start ?_
  intro j e he
  generalize hii : before cl r + l = i at *
  have hj : j < nSides P.G i := by rw [← hlen]; exact (List.getElem?_eq_some_iff.1 he).1
  obtain ⟨a, ha⟩ := isSlot_of (per := P.per) hj
  obtain ⟨v, f, h1, hn, hf⟩ := own_face hN hx ho hi hoi ha
  have : e = (v : Int) := gives_unique ⟨row, hrow, he⟩ h1
  subst this
  have hq := hN.range i j a ha
  obtain ⟨hz, hbc, hbcd⟩ := h.byFace r o s _ v ho hs hn hq
  obtain ⟨⟨l1, e1, h4⟩, h5⟩ := hE.face r x o _ _ f hx ho hq hn hf
  obtain ⟨hs1, c, hc⟩ := hE.slot _ hq
  refine ⟨f, _, by rw [(h.faces r o s ho hs).1]; exact at64_ok hf, at64_ok hz, fun acc => ?_⟩
  rw [Nat.zero_add]
  by_cases hfs : P.E (P.F i j) = (i, j)
  · have hll : l1 = l := by rw [hfs] at h4; exact is_unique hH h4 hi
    subst hll
    simp only [if_pos e1]
    have hside : firstSide P.E P.F i j = true := by simp [firstSide, hfs]
    rcases h5 with ⟨h5, _, h6⟩ | ⟨l', i', j', b', e', h6, hb, hne', h7⟩
    · have hmt : P.mate i j = none := by
        cases hmt : P.mate i j with
        | none => rfl
        | some i' =>
            obtain ⟨j', b', hb', e', hne⟩ := (hM i j a ha i').1 hmt
            exact absurd (h6 i' j' b' hb' e') (by rw [hfs]; exact hne)
      exact ⟨fun hne => absurd h5 hne, fun _ => hbn j hj hmt v (at64_ok hbc) (at64_ok hbcd) acc⟩
    · have hmt : P.mate i j = some i' := (hM i j a ha i').2 ⟨j', b', hb, h7, by rw [hfs] at hne'; exact hne'⟩
      refine ⟨fun _ => ?_, fun he => absurd he (by rw [e']; exact unInit_ne l')⟩
      have := hin j hj i' hmt acc
      rw [loc_eq hH h6, hside] at this
      rw [e']
      exact this
  · have hne : l1 ≠ l := by
      rintro rfl
      have := is_inj hH h4 hi
      refine hfs ?_
      have h6 : (P.E (P.F i j)).2 = j := by
        rw [this] at hc hs1
        exact slots_apart hD hc ha ((hN.iff i _ i j c a hc ha).1 hs1)
      exact Prod.ext this h6
    have hne' : ¬ (f.first = (l : Int)) := by rw [e1]; omega
    simp only [if_neg hne']
    have hside : firstSide P.E P.F i j = false := by simp [firstSide, hfs]
    have hmt : P.mate i j = some (P.E (P.F i j)).1 := (hM i j a ha _).2 ⟨_, c, hc, hs1, hfs⟩
    refine ⟨fun _ => ?_, fun he => absurd he (by rw [e1]; exact unInit_ne l1)⟩
    have := hin j hj _ hmt acc
    rw [loc_eq hH h4, hside] at this
    rw [e1]
    exact this

/-- what a rank knows of an own cell -/
theorem rank_coeff (h : OnMesh cl nl gc ranks outs rs P) {r : Nat} {x : RankIn} {s : Rk N V K} (hx : ranks[r]? = some x) (hs : rs[r]? = some s) {l : Nat}
    (hl : l < x.nOwn) : idx s.sys.AB l = .ok (P.AInv (before cl r + l) :: (List.range (nSides P.G (before cl r + l))).map (P.B (before cl r + l))) ∧
      idx s.sys.b l = .ok ((List.range (nSides P.G (before cl r + l))).map (P.b (before cl r + l))) ∧
      idx s.sys.relax l = .ok (P.relax (before cl r + l)) ∧ idx s.u l = .ok (P.U (before cl r + l)) := by
  have hH := h.dist.holds r x hx
  obtain ⟨hi, hoi⟩ := is_own_add hH hl
  obtain ⟨h1, h2, h3⟩ := h.byCell r _ s hoi hs
  rw [is_unique hH (own_index hH hoi).1 hi] at h1 h2 h3
  exact ⟨(idx_ok_iff _ _ _).2 h1, (idx_ok_iff _ _ _).2 h2, (idx_ok_iff _ _ _).2 h3, (idx_ok_iff _ _ _).2 (h.means r x s _ _ hx hs hi)⟩

theorem idx_B {A : Matrix (Fin N) (Fin N) K} {B : Nat → Matrix (Fin N) (Fin N) K} {n j : Nat} (hj : j < n) : idx (A :: (List.range n).map B) (j + 1) = .ok (B j) :=
  (idx_ok_iff _ _ _).2 (by rw [List.getElem?_cons_succ, List.getElem?_map, List.getElem?_range hj]; rfl)

theorem idx_b {b : Nat → Fin N → K} {n j : Nat} (hj : j < n) : idx ((List.range n).map b) j = .ok (b j) :=
  (idx_ok_iff _ _ _).2 (by rw [List.getElem?_map, List.getElem?_range hj]; rfl)

theorem idx_A {A : Matrix (Fin N) (Fin N) K} {ls : List (Matrix (Fin N) (Fin N) K)} : idx (A :: ls) 0 = .ok A := (idx_ok_iff _ _ _).2 rfl

theorem at64_getD {n : Nat} {w : List (Matrix (Fin N) (Fin V) K)} (h : n < w.length) : at64 w (n : Int) = .ok (w.getD n 0) := by
  rw [List.getD_eq_getElem _ _ h]
  exact at64_ok (List.getElem?_eq_getElem h)

theorem idx_getD {n : Nat} {w : List (Matrix (Fin N) (Fin V) K)} (h : n < w.length) : idx w n = .ok (w.getD n 0) := by
  rw [List.getD_eq_getElem _ _ h]
  exact (idx_ok_iff _ _ _).2 (List.getElem?_eq_getElem h)

theorem getD_set_self {w : List (Matrix (Fin N) (Fin V) K)} {n : Nat} (h : n < w.length) (a : Matrix (Fin N) (Fin V) K) : (w.set n a).getD n 0 = a := by
  rw [List.getD_eq_getElem?_getD, List.getElem?_set_self h]; rfl

theorem getD_set_ne {w : List (Matrix (Fin N) (Fin V) K)} {n k : Nat} (h : k ≠ n) (a : Matrix (Fin N) (Fin V) K) : (w.set n a).getD k 0 = w.getD k 0 := by
  rw [List.getD_eq_getElem?_getD, List.getElem?_set_ne (fun e => h e.symm), ← List.getD_eq_getElem?_getD]

/-- the term of a face, with the neighbours' values in local numbers -/
def localPart (P : Prob N V K) (x : RankIn) (i : Nat) (w : Nat → Matrix (Fin N) (Fin V) K) (j : Nat) (own : Matrix (Fin N) (Fin V) K) : Matrix (Fin N) (Fin V) K :=
  P.part i j own fun i' => w (loc x i')

def localLin (P : Prob N V K) (x : RankIn) (i : Nat) (ξ : Matrix (Fin N) (Fin V) K) (w : Nat → Matrix (Fin N) (Fin V) K) (j : Nat) (own : Matrix (Fin N) (Fin V) K) :
    Matrix (Fin N) (Fin V) K :=
  P.linPart i j ξ own fun i' => w (loc x i')

/-- a neighbour's mean value, turned -/
theorem mate_mean (h : OnMesh cl nl gc ranks outs rs P) {r : Nat} {x : RankIn} {s : Rk N V K} (hx : ranks[r]? = some x) (hs : rs[r]? = some s) {l j i' : Nat}
    (hl : l < x.nOwn) (hj : j < nSides P.G (before cl r + l)) (hm : P.mate (before cl r + l) j = some i') :
    at64 s.u (loc x i' : Int) = .ok (P.U i') ∧ loc x i' < x.cells.length ∧ loc x i' ≠ l := by
  have hH := h.dist.holds r x hx
  obtain ⟨p1, p2, _, _⟩ := mate_place h.dist h.num h.mates hx hl hj hm
  exact ⟨at64_ok (h.means r x s i' _ hx hs p1), is_lt hH p1, p2⟩

/-- the body of `DoReconstructionIter` -/
theorem iterBody_rank (h : OnMesh cl nl gc ranks outs rs P) {r : Nat} {x : RankIn} {s : Rk N V K} (hx : ranks[r]? = some x) (hs : rs[r]? = some s) {l : Nat}
    (hl : l < x.nOwn) (w : List (Matrix (Fin N) (Fin V) K)) (hw : w.length = x.cells.length) (z : Bool) :
    (∀ sor, iterBody P.T s.sys sor true false s.u l w = .ok (w.getD l 0 - ∑ j ∈ Finset.range (nSides P.G (before cl r + l)),
      localPart P x (before cl r + l) (fun o => w.getD o 0) j (w.getD l 0))) ∧
    iterBody P.T s.sys false false z s.u l w = .ok ((1 - P.relax (before cl r + l)) • w.getD l 0 + P.relax (before cl r + l) •
      ∑ j ∈ Finset.range (nSides P.G (before cl r + l)), localPart P x (before cl r + l) (fun o => w.getD o 0) j (w.getD l 0)) ∧
    iterBody P.T s.sys true false z s.u l w = .ok (grow (fun j a => P.relax (before cl r + l) •
      localPart P x (before cl r + l) (fun o => w.getD o 0) j a) (nSides P.G (before cl r + l)) ((1 - P.relax (before cl r + l)) • w.getD l 0)) := by
  have hle := nOwn_le (h.dist.holds r x hx)
  obtain ⟨row, hrow, hloop⟩ := rank_cell h hx hs hl
  obtain ⟨cA, cb, cr, cu⟩ := rank_coeff h hx hs hl
  obtain ⟨_, _, hper⟩ := h.own r x s hx hs
  have tr := transOther_spec P h.given
  have hcar : ∀ j M, eachRow (transOther P.T P.per (!firstSide P.E P.F (before cl r + l) j) (P.zone (P.F (before cl r + l) j))) M = .ok (P.carryM (before cl r + l) j M) :=
    fun j M => eachRow_spec _ _ (fun v => tr (before cl r + l) j v) M
  have hown : idx w l = .ok (w.getD l 0) := idx_getD (by omega)
  refine ⟨fun sor => ?_, ?_, ?_⟩
  · unfold iterBody
    simp only [cA, cb, cr, cu, hown, (idx_ok_iff _ _ _).2 hrow, Res.ok_bind, Bool.not_true, Bool.false_and, Bool.false_eq_true, if_false, if_true]
    rw [hloop _ _ (fun j a => a + -localPart P x (before cl r + l) (fun o => w.getD o 0) j (w.getD l 0))]
    · rw [runFrom_grow, grow_const, Finset.sum_neg_distrib, ← sub_eq_add_neg]
    · intro j hj i' hm a
      obtain ⟨m1, m2, _⟩ := mate_mean h hx hs hl hj hm
      simp only [m1, at64_getD (show loc x i' < w.length by omega), hper, tr, hcar, idx_b hj, idx_B hj, Res.ok_bind, localPart, Prob.part, hm, ← sub_eq_add_neg]
    · intro j hj hm v hb _ a
      simp only [hb, idx_A, Res.ok_bind, localPart, Prob.part, hm, ← sub_eq_add_neg]
  · unfold iterBody
    simp only [cA, cb, cr, cu, hown, (idx_ok_iff _ _ _).2 hrow, Res.ok_bind, Bool.not_false, Bool.and_false, Bool.false_eq_true, if_false]
    rw [hloop _ _ (fun j a => a + P.relax (before cl r + l) • localPart P x (before cl r + l) (fun o => w.getD o 0) j (w.getD l 0))]
    · rw [runFrom_grow, grow_const, Finset.smul_sum]
    · intro j hj i' hm a
      obtain ⟨m1, m2, _⟩ := mate_mean h hx hs hl hj hm
      simp only [m1, at64_getD (show loc x i' < w.length by omega), hper, tr, hcar, idx_b hj, idx_B hj, Res.ok_bind, localPart, Prob.part, hm]
    · intro j hj hm v hb _ a
      simp only [hb, idx_A, Res.ok_bind, localPart, Prob.part, hm]
  · unfold iterBody
    simp only [cA, cb, cr, cu, hown, (idx_ok_iff _ _ _).2 hrow, Res.ok_bind, Bool.not_false, Bool.and_self, Bool.false_eq_true, if_false, if_true]
    rw [hloop _ _ (fun j a => a + P.relax (before cl r + l) • localPart P x (before cl r + l) (fun o => w.getD o 0) j a)]
    · rw [runFrom_grow]
    · intro j hj i' hm a
      obtain ⟨m1, m2, m3⟩ := mate_mean h hx hs hl hj hm
      simp only [m1, at64_getD (show loc x i' < (w.set l a).length by rw [List.length_set]; omega), getD_set_ne m3, hper, tr, hcar, idx_b hj, idx_B hj, Res.ok_bind,
        localPart, Prob.part, hm]
    · intro j hj hm v hb _ a
      simp only [idx_getD (show l < (w.set l a).length by rw [List.length_set]; omega), getD_set_self (show l < w.length by omega), hb, idx_A, Res.ok_bind,
        localPart, Prob.part, hm]

/-- the body of `DoReconstructionIter` for coefficients that are taken to be zero -/
theorem zeroBody_rank (h : OnMesh cl nl gc ranks outs rs P) {r : Nat} {x : RankIn} {s : Rk N V K} (hx : ranks[r]? = some x) (hs : rs[r]? = some s) {l : Nat}
    (hl : l < x.nOwn) (w : List (Matrix (Fin N) (Fin V) K)) (hw : w.length = x.cells.length) (sor : Bool) :
    iterBody P.T s.sys sor true true s.u l w = .ok (-∑ j ∈ Finset.range (nSides P.G (before cl r + l)), match P.mate (before cl r + l) j with
      | some i' => vecMulVec (P.b (before cl r + l) j) (P.carry (before cl r + l) j (P.U i') - P.U (before cl r + l))
      | none => 0) := by
  have hle := nOwn_le (h.dist.holds r x hx)
  obtain ⟨row, hrow, hloop⟩ := rank_cell h hx hs hl
  obtain ⟨cA, cb, cr, cu⟩ := rank_coeff h hx hs hl
  obtain ⟨_, _, hper⟩ := h.own r x s hx hs
  have tr := transOther_spec P h.given
  have hcar : ∀ j M, eachRow (transOther P.T P.per (!firstSide P.E P.F (before cl r + l) j) (P.zone (P.F (before cl r + l) j))) M = .ok (P.carryM (before cl r + l) j M) :=
    fun j M => eachRow_spec _ _ (fun v => tr (before cl r + l) j v) M
  have hown : idx w l = .ok (w.getD l 0) := idx_getD (by omega)
  unfold iterBody
  simp only [cA, cb, cr, cu, hown, (idx_ok_iff _ _ _).2 hrow, Res.ok_bind, Bool.not_true, Bool.false_and, Bool.false_eq_true, if_false, if_true]
  rw [hloop _ _ (fun j a => a + -(match P.mate (before cl r + l) j with
      | some i' => vecMulVec (P.b (before cl r + l) j) (P.carry (before cl r + l) j (P.U i') - P.U (before cl r + l))
      | none => 0))]
  · rw [runFrom_grow, grow_const, Finset.sum_neg_distrib, zero_add]
  · intro j hj i' hm a
    obtain ⟨m1, m2, _⟩ := mate_mean h hx hs hl hj hm
    simp only [m1, at64_getD (show loc x i' < w.length by omega), hper, tr, hcar, idx_b hj, Res.ok_bind, hm, ← sub_eq_add_neg]
  · intro j hj hm v hb _ a
    simp only [hb, Res.ok_bind, hm, neg_zero, add_zero]

/-- the body of `DoReconstructionIterDiff` -/
theorem diffBody_rank (h : OnMesh cl nl gc ranks outs rs P) {r : Nat} {x : RankIn} {s : Rk N V K} (hx : ranks[r]? = some x) (hs : rs[r]? = some s) {l : Nat}
    (hl : l < x.nOwn) : diffBody P.T s.sys s.u s.x s.d l = .ok (s.d.getD l 0 - ∑ j ∈ Finset.range (nSides P.G (before cl r + l)),
      localLin P x (before cl r + l) (s.x.getD l 0) (fun o => s.d.getD o 0) j (s.d.getD l 0)) := by
  have hle := nOwn_le (h.dist.holds r x hx)
  obtain ⟨hlx, _, hld⟩ := h.lens r x s hx hs
  obtain ⟨row, hrow, hloop⟩ := rank_cell h hx hs hl
  obtain ⟨cA, cb, cr, cu⟩ := rank_coeff h hx hs hl
  obtain ⟨_, _, hper⟩ := h.own r x s hx hs
  have tr := transOther_spec P h.given
  have hcar : ∀ j M, eachRow (transOther P.T P.per (!firstSide P.E P.F (before cl r + l) j) (P.zone (P.F (before cl r + l) j))) M = .ok (P.carryM (before cl r + l) j M) :=
    fun j M => eachRow_spec _ _ (fun v => tr (before cl r + l) j v) M
  unfold diffBody
  simp only [cA, cu, idx_getD (show l < s.x.length by omega), idx_getD (show l < s.d.length by omega), (idx_ok_iff _ _ _).2 hrow, Res.ok_bind]
  rw [hloop _ _ (fun j a => a + -localLin P x (before cl r + l) (s.x.getD l 0) (fun o => s.d.getD o 0) j (s.d.getD l 0))]
  · rw [runFrom_grow, grow_const, Finset.sum_neg_distrib, ← sub_eq_add_neg]
  · intro j hj i' hm a
    obtain ⟨m1, m2, _⟩ := mate_mean h hx hs hl hj hm
    simp only [at64_getD (show loc x i' < s.d.length by omega), hper, hcar, idx_B hj, Res.ok_bind, localLin, Prob.linPart, hm, ← sub_eq_add_neg]
  · intro j hj hm v _ hb a
    simp only [hb, idx_A, Res.ok_bind, localLin, Prob.linPart, hm, ← sub_eq_add_neg]

/-- the body of `DoReconstructionIterSOR` -/
theorem sorBody_rank (h : OnMesh cl nl gc ranks outs rs P) {r : Nat} {x : RankIn} {s : Rk N V K} (hx : ranks[r]? = some x) (hs : rs[r]? = some s) {l : Nat}
    (hl : l < x.nOwn) (w : List (Matrix (Fin N) (Fin V) K)) (hw : w.length = x.cells.length) :
    sorBody P.T s.sys s.u s.x s.d l w = .ok (grow (fun j a => P.relax (before cl r + l) •
      localLin P x (before cl r + l) (s.x.getD l 0) (fun o => w.getD o 0) j a) (nSides P.G (before cl r + l))
      ((1 - P.relax (before cl r + l)) • w.getD l 0 + s.d.getD l 0)) := by
  have hle := nOwn_le (h.dist.holds r x hx)
  obtain ⟨hlx, _, hld⟩ := h.lens r x s hx hs
  obtain ⟨row, hrow, hloop⟩ := rank_cell h hx hs hl
  obtain ⟨cA, cb, cr, cu⟩ := rank_coeff h hx hs hl
  obtain ⟨_, _, hper⟩ := h.own r x s hx hs
  have tr := transOther_spec P h.given
  have hcar : ∀ j M, eachRow (transOther P.T P.per (!firstSide P.E P.F (before cl r + l) j) (P.zone (P.F (before cl r + l) j))) M = .ok (P.carryM (before cl r + l) j M) :=
    fun j M => eachRow_spec _ _ (fun v => tr (before cl r + l) j v) M
  unfold sorBody
  simp only [cA, cr, cu, idx_getD (show l < s.x.length by omega), idx_getD (show l < s.d.length by omega), idx_getD (show l < w.length by omega),
    (idx_ok_iff _ _ _).2 hrow, Res.ok_bind]
  rw [hloop _ _ (fun j a => a + P.relax (before cl r + l) • localLin P x (before cl r + l) (s.x.getD l 0) (fun o => w.getD o 0) j a)]
  · rw [runFrom_grow]
  · intro j hj i' hm a
    obtain ⟨m1, m2, m3⟩ := mate_mean h hx hs hl hj hm
    simp only [at64_getD (show loc x i' < (w.set l a).length by rw [List.length_set]; omega), getD_set_ne m3, hper, hcar, idx_B hj, Res.ok_bind, localLin, Prob.linPart, hm]
  · intro j hj hm v _ hb a
    simp only [hb, idx_A, Res.ok_bind, localLin, Prob.linPart, hm]

end DNDSR.RecIt
