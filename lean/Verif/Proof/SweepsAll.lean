import Verif.Proof.SweepsRank

/-! Helper lemmas for `Verif.Props.Sweeps`: sweeps on one rank of a distributed mesh. -/

namespace DNDSR.Sweep

open DNDSR.Elem DNDSR.IMap DNDSR.MeshAdj DNDSR.Faces
open DNDSR.Flux (nSides at64_ok firstSide isSlot_of lt_of_isSlot nSides_eq)
open Matrix

variable {m : Nat} {K : Type} [Field K] [LinearOrder K]
variable {per : Bool} {cl nl : List Nat} {G : List Cell} {gc : GOM} {ranks : List RankIn} {outs : List RankOut} {F : Nat → Nat → Int}
  {rs : List (Rk m K)} {D : Nat → Matrix (Fin m) (Fin m) K} {cpl : Int → Bool → (Fin m → K) → Fin m → K} {b : Nat → Fin m → K}
  {E : Int → Nat × Nat} {mate : Nat → Nat → Option Nat}

theorem is_own_add {r : Nat} {x : RankIn} (hH : Holds cl nl G r x) {l : Nat} (hl : l < x.nOwn) : Is cl r x l (before cl r + l) ∧ Owns cl r ((before cl r + l : Nat) : Int) := by
  obtain ⟨i, hi, hoi, e⟩ := own_of_lt hH hl
  have : i = before cl r + l := by obtain ⟨_, h, _⟩ := hoi; omega
  subst this
  exact ⟨hi, hoi⟩

theorem own_lt {r : Nat} (hD : Distributed per cl nl G gc ranks) {i : Nat} (hoi : Owns cl r i) : i < G.length := by
  have := (owns_range hoi).2
  rw [hD.len]; omega

/-- the inverses on a rank -/
theorem rank_invert (hD : Distributed per cl nl G gc ranks) (hG : Given cl ranks outs rs D cpl b) (hR : Regular G D) {r : Nat} {x : RankIn}
    {s : Rk m K} (hx : ranks[r]? = some x) (hs : rs[r]? = some s) :
    ∃ J', s.J.getInvert = .ok J' ∧ Same s.J J' ∧ J'.Sound ∧ ∀ l < x.nOwn, ∀ v, J'.leftInvert l v = .ok ((D (before cl r + l))⁻¹ *ᵥ v) := by
  have hH := hD.holds r x hx
  have hval : ∀ l < x.nOwn, s.J.getValue l = .ok (D (before cl r + l)) ∧ before cl r + l < G.length := by
    intro l hl
    obtain ⟨hi, hoi⟩ := is_own_add hH hl
    have := hG.blocks r _ s hoi hs
    rw [is_unique hH (own_index hH hoi).1 hi] at this
    exact ⟨this, own_lt hD hoi⟩
  obtain ⟨J', h1⟩ := getInvert_returns (hG.nblocks r x s hx hs) (fun l hl => ⟨_, (hval l hl).1, hR _ (hval l hl).2⟩)
  obtain ⟨h2, h3⟩ := getInvert_same h1
  have h4 := getInvert_sound (hG.sound r s hs) h1
  refine ⟨J', h1, h2, h4, ?_⟩
  intro l hl v
  exact leftInvert_eq h4 h3 (by rw [h2.value]; exact (hval l hl).1) v

/-- the row loop on an own cell -/
theorem rank_row (hD : Distributed per cl nl G gc ranks) (hN : Numbered per cl nl G ranks outs F) (hE : Orient per cl G ranks outs F E)
    (hM : Mates per G F mate) (hG : Given cl ranks outs rs D cpl b) {r : Nat} {x : RankIn} {s : Rk m K}
    (hx : ranks[r]? = some x) (hs : rs[r]? = some s) {l : Nat} (hl : l < x.nOwn) :
    ∃ row, s.sys.c2f[l]? = some row ∧ ∀ (keep : Int → Bool) (w : List (Fin m → K)) (buf : Fin m → K), w.length = x.cells.length →
      rowLoop s.sys keep l w row buf = .ok (buf - rowSum keep (nbrs F E mate cpl x (before cl r + l)) (nSides G (before cl r + l)) fun o => w.getD o 0) := by
  have hH := hD.holds r x hx
  obtain ⟨o, ho⟩ := rank_of hN hx
  obtain ⟨hi, hoi⟩ := is_own_add hH hl
  obtain ⟨row, h1, h2⟩ := row_of hD hN hx ho hi hoi
  refine ⟨row, by rw [(hG.faces r o s ho hs).2]; exact h1, ?_⟩
  intro keep w buf hw
  rw [rowLoop_spec s.sys keep l w row (nbrs F E mate cpl x (before cl r + l)) buf (by
    rw [hw]; exact fitRow hD hN hE hM hG hx ho hs hi hoi h1 h2), h2]

theorem rank_rhs (hD : Distributed per cl nl G gc ranks) (hG : Given cl ranks outs rs D cpl b) {r : Nat} {x : RankIn}
    {s : Rk m K} (hx : ranks[r]? = some x) (hs : rs[r]? = some s) {l : Nat} (hl : l < x.nOwn) : s.rhs[l]? = some (b (before cl r + l)) := by
  have hH := hD.holds r x hx
  obtain ⟨hi, hoi⟩ := is_own_add hH hl
  have := hG.rhs r _ s hoi hs
  rwa [is_unique hH (own_index hH hoi).1 hi] at this

/-- where the neighbours of an own cell are -/
theorem mate_place (hD : Distributed per cl nl G gc ranks) (hN : Numbered per cl nl G ranks outs F) (hM : Mates per G F mate)
    {r : Nat} {x : RankIn} (hx : ranks[r]? = some x) {l j i' : Nat} (hl : l < x.nOwn) (hj : j < nSides G (before cl r + l))
    (h : mate (before cl r + l) j = some i') : Is cl r x (loc x i') i' ∧ loc x i' ≠ l ∧ (loc x i' < x.nOwn ↔ Owns cl r i') ∧
      (Owns cl r i' → i' = before cl r + loc x i') := by
  have hH := hD.holds r x hx
  obtain ⟨hi, hoi⟩ := is_own_add hH hl
  obtain ⟨a, ha⟩ := isSlot_of (per := per) hj
  have h1 := mate_is hD hN hM hx hoi ha h
  have h2 := mate_ne hD hN hM ha h
  refine ⟨h1, ?_, is_own hH h1, ?_⟩
  · intro e
    rw [e] at h1
    exact h2 (is_inj hH h1 hi)
  · intro ho
    have := is_unique hH h1 (own_index hH ho).1
    obtain ⟨_, h, _⟩ := ho
    omega

open Classical in
/-- `UpdateSGS` on one rank -/
theorem sgs_rank (hD : Distributed per cl nl G gc ranks) (hN : Numbered per cl nl G ranks outs F) (hE : Orient per cl G ranks outs F E)
    (hM : Mates per G F mate) (hG : Given cl ranks outs rs D cpl b) (hR : Regular G D) {X : Nat → Fin m → K} (hX : Has cl ranks rs X) {r : Nat} {x : RankIn} {s : Rk m K}
    (hx : ranks[r]? = some x) (hs : rs[r]? = some s) (jacobi fwd : Bool) :
    ∃ J' u, sgs s.sys s.J s.rhs s.x (if jacobi then s.tmp else s.x) (!jacobi) fwd =
        .ok (J', u, ∑ l ∈ Finset.range x.nOwn, fun k => |u.getD l 0 k - (if jacobi then s.tmp else s.x).getD l 0 k|) ∧ Same s.J J' ∧ J'.Sound ∧
      u.length = x.cells.length ∧ ∀ l < x.nOwn, u.getD l 0 = (D (before cl r + l))⁻¹ *ᵥ (b (before cl r + l) -
        off G F (firstSide E F) mate cpl (before cl r + l) fun i' => if Seen cl jacobi fwd r (before cl r + l) i' then u.getD (loc x i') 0 else X i') := by
  have hH := hD.holds r x hx
  obtain ⟨J', h1, h2, h3, h4⟩ := rank_invert hD hG hR hx hs
  obtain ⟨hn, _⟩ := hG.own r x s hx hs
  obtain ⟨hlx, hlt⟩ := hG.lens r x s hx hs
  have hlen : (if jacobi then s.tmp else s.x).length = x.cells.length := by split <;> assumption
  have hle := nOwn_le hH
  obtain ⟨u, e1, e2, _, e4⟩ := sweepLoop_spec (sgsBody s.sys J' s.rhs s.x (!jacobi))
    (fun l w => (D (before cl r + l))⁻¹ *ᵥ (b (before cl r + l) - rowSum (fun o => decide (o ≠ (l : Int))) (nbrs F E mate cpl x (before cl r + l)) (nSides G (before cl r + l))
      (if !jacobi then w else fun o => s.x.getD o 0))) x.cells.length (order fwd s.sys.n) (if jacobi then s.tmp else s.x) 0 hlen (order_nodup _ _)
    (fun l hl => by have := (mem_order _ _ _).1 hl; omega) (by
      intro l hl w hw
      have hl : l < x.nOwn := by rw [← hn]; exact (mem_order _ _ _).1 hl
      obtain ⟨row, hr1, hr2⟩ := rank_row hD hN hE hM hG hx hs hl
      simp only [sgsBody, (idx_ok_iff _ _ _).2 hr1, (idx_ok_iff _ _ _).2 (rank_rhs hD hG hx hs hl), Res.ok_bind]
      rw [hr2 _ _ _ (by split <;> assumption)]
      simp only [Res.ok_bind]
      rw [h4 l hl]
      cases jacobi <;> rfl)
  refine ⟨J', u, ?_, h2, h3, e2, ?_⟩
  · simp only [sgs, h1, Res.ok_bind]
    rw [e1]
    simp only [Res.ok_bind, zero_add]
    rw [sum_order, hn]
  · intro l hl
    obtain ⟨pre, post, hsp, hpre⟩ := split_order fwd s.sys.n l (by omega)
    rw [e4 pre l post hsp]
    congr 2
    rw [← offIf_true]
    apply rowSum_eq
    intro j hj i' hmt
    obtain ⟨p1, p2, p3, p4⟩ := mate_place hD hN hM hx hl hj hmt
    refine ⟨by simp; exact_mod_cast p2, fun _ => ?_⟩
    have hXi : s.x.getD (loc x i') 0 = X i' := by
      rw [List.getD_eq_getElem?_getD, hX r x s i' _ hx hs p1]; rfl
    cases jacobi with
    | true =>
        rw [List.getD_eq_getElem?_getD] at hXi
        simp [Seen, hXi]
    | false =>
        simp only [Bool.not_false, if_true, Seen, true_and, Bool.false_eq_true, if_false, hXi]
        have : loc x i' ∈ pre ↔ (Owns cl r i' ∧ if fwd = true then i' < before cl r + l else before cl r + l < i') := by
          rw [hpre, hn, p3]
          refine and_congr_right fun ho => ?_
          have := p4 ho
          cases fwd
          · simp only [Bool.false_eq_true, if_false]; omega
          · simp only [if_true]; omega
        simp only [this]

/-- `LUSGSMatrixVec` on one rank -/
theorem matVec_rank (hD : Distributed per cl nl G gc ranks) (hN : Numbered per cl nl G ranks outs F) (hE : Orient per cl G ranks outs F E)
    (hM : Mates per G F mate) (hG : Given cl ranks outs rs D cpl b) {X : Nat → Fin m → K} (hX : Has cl ranks rs X) {r : Nat} {x : RankIn} {s : Rk m K}
    (hx : ranks[r]? = some x) (hs : rs[r]? = some s) :
    ∃ u, matVec s.sys s.J s.x s.tmp = .ok u ∧ u.length = x.cells.length ∧ ∀ l < x.nOwn,
      u[l]? = some (D (before cl r + l) *ᵥ X (before cl r + l) + off G F (firstSide E F) mate cpl (before cl r + l) X) := by
  have hH := hD.holds r x hx
  obtain ⟨hn, _⟩ := hG.own r x s hx hs
  obtain ⟨hlx, hlt⟩ := hG.lens r x s hx hs
  have hle := nOwn_le hH
  obtain ⟨own, e1, e2, e3⟩ := N2C.forRanks_all (fun _ iCell => do
    let row ← idx s.sys.c2f iCell
    let buf ← rowLoop s.sys (fun _ => true) iCell s.x row 0
    let xi ← idx s.x iCell
    let d ← s.J.left iCell xi
    .ok (d - buf)) (fun l _ v => v = D (before cl r + l) *ᵥ X (before cl r + l) + off G F (firstSide E F) mate cpl (before cl r + l) X) (List.range s.sys.n) (by
      intro k l hk
      obtain ⟨hk1, hk2⟩ := List.getElem?_eq_some_iff.1 hk
      simp only [List.length_range] at hk1
      simp only [List.getElem_range] at hk2
      subst hk2
      have hl : k < x.nOwn := by omega
      obtain ⟨hi, hoi⟩ := is_own_add hH hl
      obtain ⟨row, hr1, hr2⟩ := rank_row hD hN hE hM hG hx hs hl
      have hv := hG.blocks r _ s hoi hs
      rw [is_unique hH (own_index hH hoi).1 hi] at hv
      simp only [(idx_ok_iff _ _ _).2 hr1, (idx_ok_iff _ _ _).2 (hX r x s _ _ hx hs hi), Res.ok_bind, hr2 _ _ _ hlx, left_eq hv]
      refine ⟨_, rfl, ?_⟩
      rw [zero_sub, sub_neg_eq_add, ← offIf_true]
      congr 1
      apply rowSum_eq
      intro j hj i' hmt
      obtain ⟨p1, _⟩ := mate_place hD hN hM hx hl hj hmt
      refine ⟨by simp, fun _ => ?_⟩
      rw [List.getD_eq_getElem?_getD, hX r x s i' _ hx hs p1]; rfl)
  refine ⟨own ++ s.tmp.drop s.sys.n, ?_, ?_, ?_⟩
  · simp only [matVec]; rw [e1]; rfl
  · rw [List.length_append, e2, List.length_range, List.length_drop, hlt, hn]; omega
  · intro l hl
    have hol : l < own.length := by rw [e2, List.length_range]; omega
    have hol' := List.getElem?_eq_getElem hol
    rw [List.getElem?_append_left hol, hol', e3 l l _ (by rw [List.getElem?_range]; omega) hol']

open Classical in
/-- `UpdateLUSGSForward` on one rank -/
theorem forward_rank (hD : Distributed per cl nl G gc ranks) (hN : Numbered per cl nl G ranks outs F) (hE : Orient per cl G ranks outs F E)
    (hM : Mates per G F mate) (hG : Given cl ranks outs rs D cpl b) (hR : Regular G D) {r : Nat} {x : RankIn} {s : Rk m K}
    (hx : ranks[r]? = some x) (hs : rs[r]? = some s) :
    ∃ J' u, lusgsForward s.sys s.J s.rhs s.x = .ok (J', u) ∧ Same s.J J' ∧ J'.Sound ∧
      u.length = x.cells.length ∧ ∀ l < x.nOwn, u.getD l 0 = (D (before cl r + l))⁻¹ *ᵥ (b (before cl r + l) -
        offIf G F (firstSide E F) mate cpl (before cl r + l) (fun i' => Owns cl r i' ∧ i' < before cl r + l) fun i' => u.getD (loc x i') 0) := by
  have hH := hD.holds r x hx
  obtain ⟨J', h1, h2, h3, h4⟩ := rank_invert hD hG hR hx hs
  obtain ⟨hn, _⟩ := hG.own r x s hx hs
  obtain ⟨hlx, _⟩ := hG.lens r x s hx hs
  have hle := nOwn_le hH
  obtain ⟨u, e1, e2, _, e4⟩ := sweepLoop_spec (forwardBody s.sys J' s.rhs)
    (fun l w => (D (before cl r + l))⁻¹ *ᵥ (b (before cl r + l) - rowSum (fun o => decide (o < (l : Int))) (nbrs F E mate cpl x (before cl r + l)) (nSides G (before cl r + l)) w))
    x.cells.length (order true s.sys.n) s.x 0 hlx (order_nodup _ _)
    (fun l hl => by have := (mem_order _ _ _).1 hl; omega) (by
      intro l hl w hw
      have hl : l < x.nOwn := by rw [← hn]; exact (mem_order _ _ _).1 hl
      obtain ⟨row, hr1, hr2⟩ := rank_row hD hN hE hM hG hx hs hl
      simp only [forwardBody, (idx_ok_iff _ _ _).2 hr1, (idx_ok_iff _ _ _).2 (rank_rhs hD hG hx hs hl), Res.ok_bind]
      rw [hr2 _ _ _ hw]
      simp only [Res.ok_bind]
      rw [h4 l hl])
  refine ⟨J', u, ?_, h2, h3, e2, ?_⟩
  · simp only [lusgsForward, h1, Res.ok_bind]
    rw [show List.range s.sys.n = order true s.sys.n from rfl, e1]
    rfl
  · intro l hl
    obtain ⟨pre, post, hsp, hpre⟩ := split_order true s.sys.n l (by omega)
    rw [e4 pre l post hsp]
    congr 2
    apply rowSum_eq
    intro j hj i' hmt
    obtain ⟨p1, p2, p3, p4⟩ := mate_place hD hN hM hx hl hj hmt
    have hk : loc x i' < l ↔ Owns cl r i' ∧ i' < before cl r + l := by
      constructor
      · intro h
        have ho := p3.1 (by omega)
        have := p4 ho
        exact ⟨ho, by omega⟩
      · rintro ⟨ho, h⟩
        have := p4 ho
        omega
    refine ⟨by rw [← hk]; simp, fun hP => ?_⟩
    rw [if_pos ((hpre _).2 ⟨by have := hk.2 hP; omega, by simpa using hk.2 hP⟩)]

open Classical in
/-- `UpdateLUSGSBackward` on one rank -/
theorem backward_rank (hD : Distributed per cl nl G gc ranks) (hN : Numbered per cl nl G ranks outs F) (hE : Orient per cl G ranks outs F E)
    (hM : Mates per G F mate) (hG : Given cl ranks outs rs D cpl b) (hR : Regular G D) {X : Nat → Fin m → K} (hX : Has cl ranks rs X) {r : Nat} {x : RankIn} {s : Rk m K}
    (hx : ranks[r]? = some x) (hs : rs[r]? = some s) :
    ∃ J' u, lusgsBackward s.sys s.J s.x = .ok (J', u) ∧ Same s.J J' ∧ J'.Sound ∧
      u.length = x.cells.length ∧ ∀ l < x.nOwn, u.getD l 0 = X (before cl r + l) - (D (before cl r + l))⁻¹ *ᵥ
        (offIf G F (firstSide E F) mate cpl (before cl r + l) (fun i' => Owns cl r i' ∧ before cl r + l < i') (fun i' => u.getD (loc x i') 0) +
         offIf G F (firstSide E F) mate cpl (before cl r + l) (fun i' => ¬ Owns cl r i') X) := by
  have hH := hD.holds r x hx
  obtain ⟨J', h1, h2, h3, h4⟩ := rank_invert hD hG hR hx hs
  obtain ⟨hn, _⟩ := hG.own r x s hx hs
  obtain ⟨hlx, _⟩ := hG.lens r x s hx hs
  have hle := nOwn_le hH
  obtain ⟨u, e1, e2, _, e4⟩ := sweepLoop_spec (backwardBody s.sys J')
    (fun l w => w l + (D (before cl r + l))⁻¹ *ᵥ (0 - rowSum (fun o => decide (o > (l : Int))) (nbrs F E mate cpl x (before cl r + l)) (nSides G (before cl r + l)) w))
    x.cells.length (order false s.sys.n) s.x 0 hlx (order_nodup _ _)
    (fun l hl => by have := (mem_order _ _ _).1 hl; omega) (by
      intro l hl w hw
      have hl : l < x.nOwn := by rw [← hn]; exact (mem_order _ _ _).1 hl
      obtain ⟨row, hr1, hr2⟩ := rank_row hD hN hE hM hG hx hs hl
      simp only [backwardBody, (idx_ok_iff _ _ _).2 hr1, Res.ok_bind]
      rw [hr2 _ _ _ hw]
      simp only [Res.ok_bind]
      rw [h4 l hl]
      have hwl : l < w.length := by omega
      simp only [Res.ok_bind, (idx_ok_iff _ _ _).2 (List.getElem?_eq_getElem hwl), List.getD_eq_getElem _ _ hwl])
  refine ⟨J', u, ?_, h2, h3, e2, ?_⟩
  · simp only [lusgsBackward, h1, Res.ok_bind]
    rw [show (List.range s.sys.n).reverse = order false s.sys.n from rfl, e1]
    rfl
  · intro l hl
    obtain ⟨pre, post, hsp, hpre⟩ := split_order false s.sys.n l (by omega)
    obtain ⟨hi, hoi⟩ := is_own_add hH hl
    rw [e4 pre l post hsp]
    have hlp : l ∉ pre := fun h => by have := (hpre l).1 h; simp at this
    have hbeta : (fun o => if o ∈ pre then u.getD o 0 else s.x.getD o 0) l = X (before cl r + l) := by
      show (if l ∈ pre then u.getD l 0 else s.x.getD l 0) = _
      rw [if_neg hlp, List.getD_eq_getElem?_getD, hX r x s _ _ hx hs hi, Option.getD_some]
    rw [hbeta, zero_sub, mulVec_neg, ← sub_eq_add_neg]
    congr 2
    -- the neighbours after the cell are own ones or ghosts
    have hone : rowSum (fun o => decide (o > (l : Int))) (nbrs F E mate cpl x (before cl r + l)) (nSides G (before cl r + l))
        (fun o => if o ∈ pre then u.getD o 0 else s.x.getD o 0) =
        offIf G F (firstSide E F) mate cpl (before cl r + l) (fun i' => (Owns cl r i' ∧ before cl r + l < i') ∨ ¬ Owns cl r i')
          (fun i' => if Owns cl r i' then u.getD (loc x i') 0 else X i') := by
      apply rowSum_eq
      intro j hj i' hmt
      obtain ⟨p1, p2, p3, p4⟩ := mate_place hD hN hM hx hl hj hmt
      have hk : l < loc x i' ↔ (Owns cl r i' ∧ before cl r + l < i') ∨ ¬ Owns cl r i' := by
        by_cases ho : Owns cl r i'
        · have := p4 ho
          simp only [ho, true_and, not_true, or_false]
          omega
        · have : ¬ loc x i' < x.nOwn := fun h => ho (p3.1 h)
          simp only [ho, false_and, not_false_iff, or_true, iff_true]
          omega
      refine ⟨by rw [← hk]; simp, fun hP => ?_⟩
      have hlt := hk.2 hP
      have hXi : s.x.getD (loc x i') 0 = X i' := by
        rw [List.getD_eq_getElem?_getD, hX r x s i' _ hx hs p1]; rfl
      by_cases ho : Owns cl r i'
      · rw [if_pos ho, if_pos ((hpre _).2 ⟨by rw [hn]; exact p3.2 ho, by simpa using hlt⟩)]
      · rw [if_neg ho, if_neg (fun h => ho (p3.1 (by have := ((hpre _).1 h).1; omega))), hXi]
    rw [hone, offIf, offIf, offIf, ← Finset.sum_add_distrib]
    refine Finset.sum_congr rfl fun j _ => ?_
    cases mate (before cl r + l) j with
    | none => simp
    | some i' => by_cases ho : Owns cl r i' <;> simp [ho]

end DNDSR.Sweep
