import Verif.Proof.RecIterAll

/-!
# C81: the iterations of the reconstruction work on the system of the whole mesh

`P` is the system of the whole mesh: mesh, coefficients and mean values. What ranks there are matters only where a statement names `Owns` or `Seen`.
-/

namespace DNDSR.RecIt

open DNDSR.Elem DNDSR.IMap DNDSR.MeshAdj DNDSR.Faces
open DNDSR.Flux (nSides at64_ok firstSide isSlot_of lt_of_isSlot nSides_eq)
open DNDSR.Sweep (Mates loc loc_eq mate_is mate_ne row_of own_index own_of_lt nOwn_le is_own_add own_lt mate_place order order_nodup mem_order split_order Seen mate_lt owner)
open Matrix

variable {N V : Nat} {K : Type} [Field K]
variable {cl nl : List Nat} {gc : GOM} {ranks : List RankIn} {outs : List RankOut} {rs : List (Rk N V K)} {P : Prob N V K}

/-! ## Residuals -/

/-- `DoReconstructionIter` with `recordInc` writes the residual of the system into `uRecNew` and leaves `uRec`, whatever the partition and in both
modes. -/
theorem record_residual (h : OnMesh cl nl gc ranks outs rs P) {X : Nat → Matrix (Fin N) (Fin V) K} (hX : Has cl ranks rs (·.x) X) (sor : Bool) :
    ∃ rs', iterAll P.T sor true true false rs = .ok rs' ∧ OnMesh cl nl gc ranks outs rs' P ∧ Has cl ranks rs' (·.x) X ∧ HasOwn cl rs' (·.y) (P.residual X) := by
  obtain ⟨rs', e1, g1, h1⟩ := each_rank h (fun s => do
      let r ← iter P.T s.sys sor true true false s.u s.x s.y
      .ok { s with x := r.1, y := r.2 }) (fun r x s s' => s'.x = s.x ∧ ∀ l < x.nOwn, s'.y[l]? = some (P.residual X (before cl r + l))) (by
    intro r x s hx hs
    obtain ⟨hn, _, _⟩ := h.own r x s hx hs
    obtain ⟨hlx, hly, hld⟩ := h.lens r x s hx hs
    have hle := nOwn_le (h.dist.holds r x hx)
    obtain ⟨y, e, l1, _, hv⟩ := sweep_map (fun l => iterBody P.T s.sys sor true false s.u l s.x) (fun l => P.residual X (before cl r + l)) s.sys.n s.y (by omega) (by
      intro l hl
      have hl : l < x.nOwn := by omega
      rw [(iterBody_rank h hx hs hl s.x hlx false).1 sor]
      obtain ⟨w1, w2⟩ := has_getD h hX hx hs hl
      rw [w1]
      congr 2
      exact Finset.sum_congr rfl fun j hj => part_congr fun i' hm => w2 j (Finset.mem_range.1 hj) i' hm)
    refine ⟨{ s with y := y }, ?_, rfl, rfl, ⟨hlx, by rw [← hly]; exact l1, hld⟩, rfl, fun l hl => getD_some (by show l < y.length; omega) (hv l (by omega))⟩
    simp only [iter, Res.ok_bind, if_true, e]; rfl)
  refine ⟨rs', e1, g1, ?_, ?_⟩
  · intro r x s' i l hx hs' hi
    obtain ⟨x', s, hx', hs, e, _⟩ := h1 r s' hs'
    show s'.x[l]? = _
    rw [e]; exact hX r x s i l hx hs hi
  · intro r s' i hs' hoi
    obtain ⟨x, s, hx, hs, _, e⟩ := h1 r s' hs'
    have := e _ (own_index (h.dist.holds r x hx) hoi).2
    rwa [own_pos hoi] at this

/-- With `uRecIsZero` it writes the residual at zero coefficients, as far as faces between cells go: boundary faces are left out. -/
theorem record_residual_zero (h : OnMesh cl nl gc ranks outs rs P) {X : Nat → Matrix (Fin N) (Fin V) K} (hX : Has cl ranks rs (·.x) X) (sor : Bool) :
    ∃ rs' R, iterAll P.T sor true true true rs = .ok rs' ∧ OnMesh cl nl gc ranks outs rs' P ∧ Has cl ranks rs' (·.x) X ∧ HasOwn cl rs' (·.y) R ∧
      ∀ i, (P.per = true → ∀ id, P.T.fwd id 0 = 0 ∧ P.T.back id 0 = 0) →
        R i = P.residual (fun _ => 0) i + ∑ j ∈ Finset.range (nSides P.G i), if P.mate i j = none then P.AInv i * P.bc (P.F i j) 0 (P.U i) else 0 := by
  let R : Nat → Matrix (Fin N) (Fin V) K := fun i => -∑ j ∈ Finset.range (nSides P.G i), match P.mate i j with
      | some i' => vecMulVec (P.b i j) (P.carry i j (P.U i') - P.U i)
      | none => 0
  obtain ⟨rs', e1, g1, h1⟩ := each_rank h (fun s => do
      let r ← iter P.T s.sys sor true true true s.u s.x s.y
      .ok { s with x := r.1, y := r.2 }) (fun r x s s' => s'.x = s.x ∧ ∀ l < x.nOwn, s'.y[l]? = some (R (before cl r + l))) (by
    intro r x s hx hs
    obtain ⟨hn, _, _⟩ := h.own r x s hx hs
    obtain ⟨hlx, hly, hld⟩ := h.lens r x s hx hs
    have hle := nOwn_le (h.dist.holds r x hx)
    obtain ⟨y, e, l1, _, hv⟩ := sweep_map (fun l => iterBody P.T s.sys sor true true s.u l s.x) (fun l => R (before cl r + l)) s.sys.n s.y (by omega)
      (fun l hl => zeroBody_rank h hx hs (by omega) s.x hlx sor)
    refine ⟨{ s with y := y }, ?_, rfl, rfl, ⟨hlx, by rw [← hly]; exact l1, hld⟩, rfl, fun l hl => getD_some (by show l < y.length; omega) (hv l (by omega))⟩
    simp only [iter, Res.ok_bind, if_true, e]; rfl)
  refine ⟨rs', R, e1, g1, ?_, ?_, ?_⟩
  · intro r x s' i l hx hs' hi
    obtain ⟨x', s, hx', hs, e, _⟩ := h1 r s' hs'
    show s'.x[l]? = _
    rw [e]; exact hX r x s i l hx hs hi
  · intro r s' i hs' hoi
    obtain ⟨x, s, hx, hs, _, e⟩ := h1 r s' hs'
    have := e _ (own_index (h.dist.holds r x hx) hoi).2
    rwa [own_pos hoi] at this
  · intro i hz
    have hc : ∀ j, P.carryM i j (0 : Matrix (Fin N) (Fin V) K) = 0 := by
      intro j
      funext k
      show P.carry i j 0 = 0
      unfold Prob.carry
      cases hp : P.per with
      | false => rfl
      | true =>
          have := hz hp (P.zone (P.F i j))
          simp only [Bool.true_eq_false, if_false, this.1, this.2, ite_self]
    show -_ = (0 : Matrix (Fin N) (Fin V) K) - _ + _
    rw [zero_sub, ← Finset.sum_neg_distrib, ← Finset.sum_neg_distrib, ← Finset.sum_add_distrib]
    refine Finset.sum_congr rfl fun j _ => ?_
    unfold Prob.part
    cases hm : P.mate i j with
    | none => simp
    | some i' => simp [hc]

/-! ## Iterations -/

/-- One Jacobi iteration takes `relax` times the residual off; the result is in `uRecNew` with `putIntoNew` and otherwise in `uRec`, with the old
values in `uRecNew`. -/
theorem iter_jacobi (h : OnMesh cl nl gc ranks outs rs P) {X : Nat → Matrix (Fin N) (Fin V) K} (hX : Has cl ranks rs (·.x) X) (putIntoNew z : Bool) :
    ∃ rs', iterAll P.T false putIntoNew false z rs = .ok rs' ∧ OnMesh cl nl gc ranks outs rs' P ∧
      HasOwn cl rs' (fun s => if putIntoNew then s.y else s.x) (fun i => X i - P.relax i • P.residual X i) ∧
      HasOwn cl rs' (fun s => if putIntoNew then s.x else s.y) X := by
  have hXo := has_own h hX
  obtain ⟨rs', e1, g1, h1⟩ := each_rank h (fun s => do
      let r ← iter P.T s.sys false putIntoNew false z s.u s.x s.y
      .ok { s with x := r.1, y := r.2 }) (fun r x s s' =>
        (∀ l < x.nOwn, (if putIntoNew then s'.y else s'.x)[l]? = some (X (before cl r + l) - P.relax (before cl r + l) • P.residual X (before cl r + l))) ∧
        ∀ l < x.nOwn, (if putIntoNew then s'.x else s'.y)[l]? = some (X (before cl r + l))) (by
    intro r x s hx hs
    obtain ⟨hn, _, _⟩ := h.own r x s hx hs
    obtain ⟨hlx, hly, hld⟩ := h.lens r x s hx hs
    have hH := h.dist.holds r x hx
    have hle := nOwn_le hH
    obtain ⟨y, e, l1, _, hv⟩ := sweep_map (fun l => iterBody P.T s.sys false false z s.u l s.x)
      (fun l => X (before cl r + l) - P.relax (before cl r + l) • P.residual X (before cl r + l)) s.sys.n s.y (by omega) (by
      intro l hl
      have hl : l < x.nOwn := by omega
      rw [(iterBody_rank h hx hs hl s.x hlx z).2.1]
      obtain ⟨w1, w2⟩ := has_getD h hX hx hs hl
      rw [w1, Prob.residual, smul_sub, sub_smul, one_smul, sub_sub_eq_add_sub]
      congr 1
      rw [add_sub_right_comm]
      congr 2
      exact Finset.sum_congr rfl fun j hj => part_congr fun i' hm => w2 j (Finset.mem_range.1 hj) i' hm)
    have hxl : ∀ l < x.nOwn, s.x[l]? = some (X (before cl r + l)) := fun l hl => hX r x s _ _ hx hs (is_own_add hH hl).1
    have hyl : ∀ l < x.nOwn, y[l]? = some (X (before cl r + l) - P.relax (before cl r + l) • P.residual X (before cl r + l)) :=
      fun l hl => getD_some (by omega) (hv l (by omega))
    cases putIntoNew with
    | true =>
        refine ⟨{ s with y := y }, ?_, rfl, rfl, ⟨hlx, by rw [← hly]; exact l1, hld⟩, hyl, hxl⟩
        simp only [iter, Res.ok_bind, Bool.false_eq_true, if_false, Bool.not_true, e]; rfl
    | false =>
        refine ⟨{ s with x := y.take s.sys.n ++ s.x.drop s.sys.n, y := s.x.take s.sys.n ++ y.drop s.sys.n }, ?_, rfl, rfl, ⟨?_, ?_, hld⟩, ?_, ?_⟩
        · simp only [iter, Res.ok_bind, Bool.false_eq_true, if_false, Bool.not_false, if_true, e]; rfl
        · show (y.take s.sys.n ++ s.x.drop s.sys.n).length = _
          rw [List.length_append, List.length_take, List.length_drop]; omega
        · show (s.x.take s.sys.n ++ y.drop s.sys.n).length = _
          rw [List.length_append, List.length_take, List.length_drop]; omega
        · intro l hl
          show (y.take s.sys.n ++ s.x.drop s.sys.n)[l]? = _
          rw [List.getElem?_append_left (by rw [List.length_take]; omega), List.getElem?_take_of_lt (by omega)]
          exact hyl l hl
        · intro l hl
          show (s.x.take s.sys.n ++ y.drop s.sys.n)[l]? = _
          rw [List.getElem?_append_left (by rw [List.length_take]; omega), List.getElem?_take_of_lt (by omega)]
          exact hxl l hl)
  refine ⟨rs', e1, g1, ?_, ?_⟩
  · intro r s' i hs' hoi
    obtain ⟨x, s, hx, hs, e, _⟩ := h1 r s' hs'
    have := e _ (own_index (h.dist.holds r x hx) hoi).2
    rwa [own_pos hoi] at this
  · intro r s' i hs' hoi
    obtain ⟨x, s, hx, hs, _, e⟩ := h1 r s' hs'
    have := e _ (own_index (h.dist.holds r x hx) hoi).2
    rwa [own_pos hoi] at this

open Classical in
/-- One iteration with `SORInstead`: cell by cell, with the new values of the cells of the rank that have been passed and the old values of all
others; boundary conditions see the value of the cell as it grows. -/
theorem iter_sor (h : OnMesh cl nl gc ranks outs rs P) {X : Nat → Matrix (Fin N) (Fin V) K} (hX : Has cl ranks rs (·.x) X) (putIntoNew z : Bool) :
    ∃ rs' Y, iterAll P.T true putIntoNew false z rs = .ok rs' ∧ OnMesh cl nl gc ranks outs rs' P ∧
      HasOwn cl rs' (fun s => if putIntoNew then s.y else s.x) Y ∧
      ∀ r i, Owns cl r (i : Nat) → Y i = grow (fun j a => P.relax i • P.part i j a fun i' => if Seen cl false true r i i' then Y i' else X i')
        (nSides P.G i) ((1 - P.relax i) • X i) := by
  obtain ⟨rs', e1, g1, h1⟩ := each_rank h (fun s => do
      let r ← iter P.T s.sys true putIntoNew false z s.u s.x s.y
      .ok { s with x := r.1, y := r.2 }) (fun r x s s' => ∃ w : List (Matrix (Fin N) (Fin V) K), w.length = x.cells.length ∧
        (∀ l < x.nOwn, (if putIntoNew then s'.y else s'.x)[l]? = w[l]?) ∧
        ∀ l < x.nOwn, w.getD l 0 = grow (fun j a => P.relax (before cl r + l) • P.part (before cl r + l) j a fun i' =>
          if Seen cl false true r (before cl r + l) i' then w.getD (loc x i') 0 else X i') (nSides P.G (before cl r + l)) ((1 - P.relax (before cl r + l)) • X (before cl r + l))) (by
    intro r x s hx hs
    obtain ⟨hn, _, _⟩ := h.own r x s hx hs
    obtain ⟨hlx, hly, hld⟩ := h.lens r x s hx hs
    have hH := h.dist.holds r x hx
    have hle := nOwn_le hH
    obtain ⟨w, e, l1, _, hv⟩ := sweep_spec (iterBody P.T s.sys true false z s.u)
      (fun l w => grow (fun j a => P.relax (before cl r + l) • localPart P x (before cl r + l) w j a) (nSides P.G (before cl r + l)) ((1 - P.relax (before cl r + l)) • w l))
      x.cells.length (List.range s.sys.n) s.x hlx List.nodup_range (fun l hl => by have := List.mem_range.1 hl; omega)
      (fun l hl w hw => (iterBody_rank h hx hs (by have := List.mem_range.1 hl; omega) w hw z).2.2)
    have hval : ∀ l < x.nOwn, w.getD l 0 = grow (fun j a => P.relax (before cl r + l) • P.part (before cl r + l) j a fun i' =>
          if Seen cl false true r (before cl r + l) i' then w.getD (loc x i') 0 else X i') (nSides P.G (before cl r + l)) ((1 - P.relax (before cl r + l)) • X (before cl r + l)) := by
      intro l hl
      obtain ⟨pre, post, hsp, hpre⟩ := split_order true s.sys.n l (by omega)
      obtain ⟨w1, w2⟩ := has_getD h hX hx hs hl
      rw [hv pre l post hsp]
      have hlp : l ∉ pre := fun h => by have := (hpre l).1 h; simp at this
      have hbeta : (fun o => if o ∈ pre then w.getD o 0 else s.x.getD o 0) l = X (before cl r + l) := by
        show (if l ∈ pre then w.getD l 0 else s.x.getD l 0) = _
        rw [if_neg hlp, w1]
      rw [hbeta]
      refine grow_congr (fun j hj a => ?_) _
      congr 1
      refine part_congr fun i' hm => ?_
      obtain ⟨p1, p2, p3, p4⟩ := mate_place h.dist h.num h.mates hx hl hj hm
      have : loc x i' ∈ pre ↔ Seen cl false true r (before cl r + l) i' := by
        rw [hpre, hn, p3, Seen]
        simp only [if_true, true_and]
        refine and_congr_right fun ho => ?_
        have := p4 ho
        omega
      simp only [this, w2 j hj i' hm]
    cases putIntoNew with
    | false =>
        refine ⟨{ s with x := w }, ?_, rfl, rfl, ⟨l1, hly, hld⟩, w, l1, fun l hl => rfl, hval⟩
        simp only [iter, Res.ok_bind, Bool.false_eq_true, if_false, if_true, e]; rfl
    | true =>
        refine ⟨{ s with x := s.y.take s.sys.n ++ w.drop s.sys.n, y := w.take s.sys.n ++ s.y.drop s.sys.n }, ?_, rfl, rfl, ⟨?_, ?_, hld⟩, w, l1, ?_, hval⟩
        · simp only [iter, Res.ok_bind, Bool.false_eq_true, if_false, if_true, e]; rfl
        · show (s.y.take s.sys.n ++ w.drop s.sys.n).length = _
          rw [List.length_append, List.length_take, List.length_drop]; omega
        · show (w.take s.sys.n ++ s.y.drop s.sys.n).length = _
          rw [List.length_append, List.length_take, List.length_drop]; omega
        · intro l hl
          show (w.take s.sys.n ++ s.y.drop s.sys.n)[l]? = _
          rw [List.getElem?_append_left (by rw [List.length_take]; omega), List.getElem?_take_of_lt (by omega)])
  obtain ⟨Y, hY⟩ := own_exists g1 (fun s => if putIntoNew then s.y else s.x) (fun r x s hx hs => by
    have := g1.lens r x s hx hs
    split <;> omega)
  refine ⟨rs', Y, e1, g1, hY, ?_⟩
  intro r i hoi
  have hr : r < rs'.length := by rw [g1.size, h.dist.nranks]; exact hoi.1
  have hs' := List.getElem?_eq_getElem hr
  obtain ⟨x, s, hx, hs, w, lw, hw1, hw2⟩ := h1 r _ hs'
  have hH := h.dist.holds r x hx
  have hwY : ∀ i' : Nat, Owns cl r i' → w.getD ((i' : Int) - before cl r).toNat 0 = Y i' := by
    intro i' ho'
    have h3 := hY r _ i' hs' ho'
    have h4 := hw1 _ (own_index hH ho').2
    rw [List.getD_eq_getElem?_getD, ← h4]
    have h5 : (if putIntoNew = true then rs'[r].y else rs'[r].x)[((i' : Int) - before cl r).toNat]? = some (Y i') := h3
    rw [h5]; rfl
  have h6 := hw2 _ (own_index hH hoi).2
  rw [own_pos hoi, hwY i hoi] at h6
  rw [h6]
  refine grow_congr (fun j hj a => ?_) _
  congr 1
  refine part_congr fun i' _ => ?_
  by_cases hS : Seen cl false true r i i'
  · rw [if_pos hS, if_pos hS, loc_eq hH (own_index hH hS.2.1).1, hwY i' hS.2.1]
  · rw [if_neg hS, if_neg hS]

theorem seen_irrefl {jacobi fwd : Bool} {r i : Nat} : ¬ Seen cl jacobi fwd r i i := by
  rintro ⟨_, _, h⟩
  cases fwd <;> simp at h

open Classical in
/-- Either mode, if boundary values do not depend on the coefficients or the mode is Jacobi's: `relax` times the residual comes off, at the
values a cell sees. -/
theorem iter_relaxes (h : OnMesh cl nl gc ranks outs rs P) {X : Nat → Matrix (Fin N) (Fin V) K} (hX : Has cl ranks rs (·.x) X) {sor : Bool}
    (hb : sor = true → P.Blind) (putIntoNew z : Bool) :
    ∃ rs' Y, iterAll P.T sor putIntoNew false z rs = .ok rs' ∧ OnMesh cl nl gc ranks outs rs' P ∧
      HasOwn cl rs' (fun s => if putIntoNew then s.y else s.x) Y ∧
      ∀ r i, Owns cl r (i : Nat) → Y i = X i - P.relax i • P.residual (fun i' => if Seen cl (!sor) true r i i' then Y i' else X i') i := by
  cases sor with
  | false =>
      obtain ⟨rs', e, g, h1, _⟩ := iter_jacobi h hX putIntoNew z
      refine ⟨rs', _, e, g, h1, fun r i _ => ?_⟩
      congr 2
      refine congrFun (congrArg _ ?_) i
      funext i'
      rw [if_neg (fun hS => by have := hS.1; simp at this)]
  | true =>
      obtain ⟨rs', Y, e, g, h1, h2⟩ := iter_sor h hX putIntoNew z
      refine ⟨rs', Y, e, g, h1, fun r i hoi => ?_⟩
      have hi := own_lt h.dist hoi
      rw [h2 r i hoi, grow_congr (t' := fun j _ => P.relax i • P.part i j (X i) fun i' => if Seen cl false true r i i' then Y i' else X i')]
      · rw [grow_const, ← Finset.smul_sum, Prob.residual]
        simp only [Bool.not_true]
        rw [if_neg seen_irrefl, smul_sub, sub_smul, one_smul, ← sub_add]
      · intro j hj a
        congr 1
        unfold Prob.part
        cases hm : P.mate i j with
        | none => simp only [hb rfl i hi j hj hm a (X i)]
        | some i' => rfl

/-! ## Convergence -/

theorem residual_congr (h : OnMesh cl nl gc ranks outs rs P) {X Y : Nat → Matrix (Fin N) (Fin V) K} {i : Nat} (h0 : X i = Y i)
    (h1 : ∀ j < nSides P.G i, ∀ i', P.mate i j = some i' → X i' = Y i') : P.residual X i = P.residual Y i := by
  unfold Prob.residual
  rw [h0]
  congr 1
  exact Finset.sum_congr rfl fun j hj => part_congr fun i' hm => h1 j (Finset.mem_range.1 hj) i' hm

/-- One step of the solver's loop, an iteration and the exchange, returns on every mesh and all ranks end up with the same values; it leaves the
coefficients as they are exactly when they solve the system of the whole mesh. -/
theorem step_fixed_iff (h : OnMesh cl nl gc ranks outs rs P) {X : Nat → Matrix (Fin N) (Fin V) K} (hX : Has cl ranks rs (·.x) X) {sor : Bool}
    (hb : sor = true → P.Blind) (hr : ∀ i < P.G.length, P.relax i ≠ 0) :
    ∃ rs' Y, step gc P.T sor rs = .ok rs' ∧ OnMesh cl nl gc ranks outs rs' P ∧ Has cl ranks rs' (·.x) Y ∧ ((∀ i < P.G.length, Y i = X i) ↔ P.Solves X) := by
  classical
  obtain ⟨rs1, Y, e1, g1, h1, h2⟩ := iter_relaxes h hX hb false false
  obtain ⟨rs2, e2, g2, h3⟩ := pull_spec g1 (X := Y) h1
  refine ⟨rs2, Y, by simp only [step, e1, Res.ok_bind, e2], g2, h3, ⟨?_, ?_⟩⟩
  · intro hf i hi
    obtain ⟨r, ho⟩ := owner h.dist hi
    have h4 := h2 r i ho
    rw [hf i hi, eq_comm, sub_eq_self, smul_eq_zero] at h4
    rw [← h4.resolve_left (hr i hi)]
    refine residual_congr h (by rw [hf i hi, ite_self]) fun j hj i' hm => ?_
    rw [hf i' (mate_lt h.mates hj hm), ite_self]
  · intro hs i
    induction i using Nat.strong_induction_on with
    | _ i ih =>
        intro hi
        obtain ⟨r, ho⟩ := owner h.dist hi
        rw [h2 r i ho, sub_eq_self]
        have : P.residual (fun i' => if Seen cl (!sor) true r i i' then Y i' else X i') i = P.residual X i := by
          refine residual_congr h (by rw [if_neg seen_irrefl]) fun j hj i' hm => ?_
          by_cases hS : Seen cl (!sor) true r i i'
          · rw [if_pos hS]
            exact ih i' (by simpa using hS.2.2) (mate_lt h.mates hj hm)
          · rw [if_neg hS]
        rw [this, hs i hi, smul_zero]

section Ordered

variable [LinearOrder K] [IsStrictOrderedRing K]

/-- If the relaxed equation of each cell shrinks errors by `q`, then after `k` steps errors have shrunk by `q ^ k`, in both modes and whatever the
partition. `ν` is any size of coefficients. -/
theorem steps_contract (h : OnMesh cl nl gc ranks outs rs P) {X : Nat → Matrix (Fin N) (Fin V) K} (hX : Has cl ranks rs (·.x) X) {sor : Bool}
    (hb : sor = true → P.Blind) (ν : Matrix (Fin N) (Fin V) K → K) {q : K} (hq0 : 0 ≤ q) (hq1 : q ≤ 1) {S : Nat → Matrix (Fin N) (Fin V) K}
    (hdom : ∀ i < P.G.length, ∀ (Y : Nat → Matrix (Fin N) (Fin V) K) (c : K), 0 ≤ c → ν (Y i - S i) ≤ c →
      (∀ j < nSides P.G i, ∀ i', P.mate i j = some i' → ν (Y i' - S i') ≤ c) → ν (Y i - P.relax i • P.residual Y i - S i) ≤ q * c)
    {c : K} (hc : 0 ≤ c) (herr : ∀ i < P.G.length, ν (X i - S i) ≤ c) (k : Nat) :
    ∃ rs' Y, steps gc P.T sor k rs = .ok rs' ∧ OnMesh cl nl gc ranks outs rs' P ∧ Has cl ranks rs' (·.x) Y ∧ ∀ i < P.G.length, ν (Y i - S i) ≤ q ^ k * c := by
  classical
  induction k generalizing rs X c with
  | zero => exact ⟨rs, X, rfl, h, hX, fun i hi => by rw [pow_zero, one_mul]; exact herr i hi⟩
  | succ k ih =>
      obtain ⟨rs1, Y, e1, g1, h1, h2⟩ := iter_relaxes h hX hb false false
      obtain ⟨rs2, e2, g2, h3⟩ := pull_spec g1 (X := Y) h1
      have hqc : q * c ≤ c := by nlinarith
      have hY : ∀ i, i < P.G.length → ν (Y i - S i) ≤ q * c := by
        intro i
        induction i using Nat.strong_induction_on with
        | _ i ihi =>
            intro hi
            obtain ⟨r, ho⟩ := owner h.dist hi
            have := hdom i hi (fun i' => if Seen cl (!sor) true r i i' then Y i' else X i') c hc (by rw [if_neg seen_irrefl]; exact herr i hi) (by
              intro j hj i' hm
              by_cases hS : Seen cl (!sor) true r i i'
              · simp only [if_pos hS]
                exact (ihi i' (by simpa using hS.2.2) (mate_lt h.mates hj hm)).trans hqc
              · simp only [if_neg hS]
                exact herr i' (mate_lt h.mates hj hm))
            rw [if_neg seen_irrefl, ← h2 r i ho] at this
            exact this
      obtain ⟨rs', Y', e, g, h4, h5⟩ := ih g2 h3 (mul_nonneg hq0 hc) hY
      refine ⟨rs', Y', ?_, g, h4, fun i hi => (h5 i hi).trans (le_of_eq (by rw [pow_succ, mul_assoc]))⟩
      simp only [steps, step, e1, e2, Res.ok_bind]
      exact e

end Ordered

end DNDSR.RecIt
