import Verif.Proof.SweepsAll
import Verif.Props.FluxSum
import Mathlib.Tactic.Linarith
import Mathlib.Tactic.NormNum
import Mathlib.LinearAlgebra.Matrix.Notation

/-!
# C76 and C77: implicit sweeps over all ranks, and the inverses of the diagonal blocks

`E` gives the first side of every face, so `firstSide E F i j` says on which side of its face `j` cell `i` is.  Matrix and
neighbours belong to the whole mesh; what ranks there are matters only where a statement names `Owns`.
-/

namespace DNDSR.Sweep

open DNDSR.Elem DNDSR.IMap DNDSR.MeshAdj DNDSR.Faces
open DNDSR.Flux (nSides firstSide isSlot_of sum_ranks)
open Matrix

variable {m : Nat} {K : Type} [Field K] [LinearOrder K]
variable {per : Bool} {cl nl : List Nat} {G : List Cell} {gc : GOM} {ranks : List RankIn} {outs : List RankOut} {F : Nat → Nat → Int}
  {rs : List (Rk m K)} {D : Nat → Matrix (Fin m) (Fin m) K} {cpl : Int → Bool → (Fin m → K) → Fin m → K} {b : Nat → Fin m → K}
  {E : Int → Nat × Nat} {mate : Nat → Nat → Option Nat}

/-! ## The system -/

/-- The faces `InterpolateFace` builds give every cell the same neighbours and sides on all ranks. -/
theorem system_exists {srt : Sorter} (hs : Sorts srt) (hD : Distributed per cl nl G gc ranks) (hI : interpolate per srt gc ranks = .ok outs) :
    ∃ F E mate, Numbered per cl nl G ranks outs F ∧ Orient per cl G ranks outs F E ∧ Mates per G F mate := by
  obtain ⟨F, hN⟩ := Flux.numbered_of hs hD hI
  obtain ⟨E, hE⟩ := orient_exists hD hN
  obtain ⟨mate, hM⟩ := mates_exist hD hN
  exact ⟨F, E, mate, hN, hE, hM⟩

theorem mate_lt (hM : Mates per G F mate) {i j i' : Nat} (hj : j < nSides G i) (h : mate i j = some i') : i' < G.length := by
  obtain ⟨a, ha⟩ := isSlot_of (per := per) hj
  obtain ⟨_, _, ⟨C, hC, _⟩, _⟩ := (hM i j a ha i').1 h
  exact (List.getElem?_eq_some_iff.1 hC).1

theorem off_congr {σ : Nat → Nat → Bool} {i : Nat} {X Y : Nat → Fin m → K}
    (h : ∀ j < nSides G i, ∀ i', mate i j = some i' → X i' = Y i') : off G F σ mate cpl i X = off G F σ mate cpl i Y := by
  refine Finset.sum_congr rfl fun j hj => ?_
  cases hmt : mate i j with
  | none => rfl
  | some i' => simp only [h j (Finset.mem_range.1 hj) i' hmt]

theorem offIf_congr {σ : Nat → Nat → Bool} {i : Nat} {P : Nat → Prop} {X Y : Nat → Fin m → K}
    (h : ∀ i', P i' → X i' = Y i') : offIf G F σ mate cpl i P X = offIf G F σ mate cpl i P Y := by
  refine Finset.sum_congr rfl fun j hj => ?_
  cases hmt : mate i j with
  | none => rfl
  | some i' =>
      by_cases hP : P i'
      · simp only [if_pos hP, h i' hP]
      · simp only [if_neg hP]

theorem solve_iff {A : Matrix (Fin m) (Fin m) K} (h : IsUnit A.det) (v : Fin m → K) : A *ᵥ (A⁻¹ *ᵥ v) = v := by
  rw [mulVec_mulVec, mul_nonsing_inv _ h, one_mulVec]

theorem solve_inj {A : Matrix (Fin m) (Fin m) K} (h : IsUnit A.det) {v w : Fin m → K} (e : A *ᵥ v = A *ᵥ w) : v = w := by
  have : A⁻¹ *ᵥ (A *ᵥ v) = A⁻¹ *ᵥ (A *ᵥ w) := by rw [e]
  rwa [mulVec_mulVec, mulVec_mulVec, nonsing_inv_mul _ h, one_mulVec, one_mulVec] at this

/-- who owns a cell -/
theorem owner (hD : Distributed per cl nl G gc ranks) {i : Nat} (hi : i < G.length) : ∃ r, Owns cl r i :=
  owns_exists (by omega) (by rw [hD.len] at hi; omega)

/-! ## The product -/

/-- `LUSGSMatrixVec` is the product with the matrix of the whole mesh, whatever the partition. -/
theorem matVec_global (hD : Distributed per cl nl G gc ranks) (hN : Numbered per cl nl G ranks outs F) (hE : Orient per cl G ranks outs F E)
    (hM : Mates per G F mate) (hG : Given cl ranks outs rs D cpl b) {X : Nat → Fin m → K} (hX : Has cl ranks rs X) :
    ∃ rs', matVecAll rs = .ok rs' ∧ rs'.length = ranks.length ∧ TmpOwn cl rs' fun i => D i *ᵥ X i + off G F (firstSide E F) mate cpl i X := by
  obtain ⟨rs', e1, l1, h1⟩ := N2C.forRanks_all (fun _ (s : Rk m K) => do
    let Ax ← matVec s.sys s.J s.x s.tmp
    .ok ({ s with tmp := Ax } : Rk m K)) (fun r s s' => ∀ i : Nat, Owns cl r i →
      s'.tmp[((i : Int) - before cl r).toNat]? = some (D i *ᵥ X i + off G F (firstSide E F) mate cpl i X)) rs (by
    intro r s hs
    have hr : r < ranks.length := by rw [← hG.size]; exact (List.getElem?_eq_some_iff.1 hs).1
    have hx := List.getElem?_eq_getElem hr
    obtain ⟨u, hu, _, h⟩ := matVec_rank hD hN hE hM hG hX hx hs
    rw [hu]
    refine ⟨{ s with tmp := u }, rfl, ?_⟩
    intro i hoi
    have hl := (own_index (hD.holds r _ hx) hoi).2
    have := h _ hl
    rwa [show before cl r + ((i : Int) - before cl r).toNat = i by obtain ⟨_, h, _⟩ := hoi; omega] at this)
  refine ⟨rs', e1, by rw [l1, hG.size], ?_⟩
  intro r s' i hs' hoi
  have hr : r < rs.length := by rw [← l1]; exact (List.getElem?_eq_some_iff.1 hs').1
  exact h1 r _ s' (List.getElem?_eq_getElem hr) hs' i hoi

/-! ## One sweep -/

open Classical in
/-- One call of `UpdateSGS`: every cell solves its own equation, with the new values of the cells of its rank the sweep has
passed and the old values of all others.  The sum is over all cells of the mesh. -/
theorem sgs_sweep (hD : Distributed per cl nl G gc ranks) (hN : Numbered per cl nl G ranks outs F) (hE : Orient per cl G ranks outs F E)
    (hM : Mates per G F mate) (hG : Given cl ranks outs rs D cpl b) (hR : Regular G D) {X T : Nat → Fin m → K} (hX : Has cl ranks rs X)
    (hT : TmpOwn cl rs T) (jacobi fwd : Bool) :
    ∃ rs' X1, sgsAll jacobi fwd rs = .ok (rs', fun k => ∑ i ∈ Finset.range G.length, |X1 i k - (if jacobi then T else X) i k|) ∧
      Given cl ranks outs rs' D cpl b ∧ HasOwn cl rs' X1 ∧ TmpOwn cl rs' (if jacobi then X1 else T) ∧
      ∀ r i, Owns cl r (i : Nat) → D i *ᵥ X1 i + off G F (firstSide E F) mate cpl i (fun i' => if Seen cl jacobi fwd r i i' then X1 i' else X i') = b i := by
  obtain ⟨out, e1, l1, h1⟩ := N2C.forRanks_all (fun _ (s : Rk m K) => do
    let r ← sgs s.sys s.J s.rhs s.x (if jacobi then s.tmp else s.x) (!jacobi) fwd
    .ok (({ s with J := r.1, x := r.2.1, tmp := if jacobi then r.2.1 else s.tmp } : Rk m K), r.2.2))
    (fun r s y => ∀ x, ranks[r]? = some x → ∃ J' u, y = (({ s with J := J', x := u, tmp := if jacobi then u else s.tmp } : Rk m K),
        ∑ l ∈ Finset.range x.nOwn, fun k => |u.getD l 0 k - (if jacobi then s.tmp else s.x).getD l 0 k|) ∧ Same s.J J' ∧ J'.Sound ∧
      u.length = x.cells.length ∧ ∀ l < x.nOwn, u.getD l 0 = (D (before cl r + l))⁻¹ *ᵥ (b (before cl r + l) -
        off G F (firstSide E F) mate cpl (before cl r + l) fun i' => if Seen cl jacobi fwd r (before cl r + l) i' then u.getD (loc x i') 0 else X i')) rs (by
    intro r s hs
    have hr : r < ranks.length := by rw [← hG.size]; exact (List.getElem?_eq_some_iff.1 hs).1
    have hx := List.getElem?_eq_getElem hr
    obtain ⟨J', u, h2, h3⟩ := sgs_rank hD hN hE hM hG hR hX hx hs jacobi fwd
    rw [h2]
    refine ⟨_, rfl, ?_⟩
    intro x hx'
    rw [hx] at hx'; cases hx'
    exact ⟨J', u, rfl, h3⟩)
  have hback : ∀ {r : Nat} {y : Rk m K × (Fin m → K)}, out[r]? = some y → ∃ x s J' u, ranks[r]? = some x ∧ rs[r]? = some s ∧
      y = (({ s with J := J', x := u, tmp := if jacobi then u else s.tmp } : Rk m K),
        ∑ l ∈ Finset.range x.nOwn, fun k => |u.getD l 0 k - (if jacobi then s.tmp else s.x).getD l 0 k|) ∧ Same s.J J' ∧ J'.Sound ∧
      u.length = x.cells.length ∧ ∀ l < x.nOwn, u.getD l 0 = (D (before cl r + l))⁻¹ *ᵥ (b (before cl r + l) -
        off G F (firstSide E F) mate cpl (before cl r + l) fun i' => if Seen cl jacobi fwd r (before cl r + l) i' then u.getD (loc x i') 0 else X i') := by
    intro r y hy
    have hr : r < rs.length := by rw [← l1]; exact (List.getElem?_eq_some_iff.1 hy).1
    have hs := List.getElem?_eq_getElem hr
    have hx := List.getElem?_eq_getElem (by rw [← hG.size]; exact hr : r < ranks.length)
    obtain ⟨J', u, h⟩ := h1 r _ y hs hy _ hx
    exact ⟨_, _, J', u, hx, hs, h⟩
  have hG' : Given cl ranks outs (out.map (·.1)) D cpl b := by
    refine given_of hG (by rw [List.length_map, l1]) ?_
    intro r x s' hx hs'
    rw [List.getElem?_map] at hs'
    obtain ⟨y, hy, rfl⟩ := Option.map_eq_some_iff.1 hs'
    obtain ⟨x', s, J', u, hx', hs, rfl, h2, h3, h4, _⟩ := hback hy
    rw [hx] at hx'; cases hx'
    refine ⟨s, hs, rfl, h2, h3, rfl, h4, ?_⟩
    cases jacobi
    · exact (hG.lens r x s hx hs).2
    · exact h4
  obtain ⟨X1, hX1⟩ := own_exists (u := fun s => s.x) hD hG'.size (fun r x s hx hs => (hG'.lens r x s hx hs).1)
  have hpos : ∀ {r i : Nat}, Owns cl r i → before cl r + ((i : Int) - before cl r).toNat = i := by
    intro r i ⟨_, h, _⟩; omega
  have hval : ∀ {r : Nat} {s : Rk m K} {J' : JDiag m K} {u : List (Fin m → K)} {t : Fin m → K},
      out[r]? = some (({ s with J := J', x := u, tmp := if jacobi then u else s.tmp } : Rk m K), t) →
      ∀ i : Nat, Owns cl r i → u[((i : Int) - before cl r).toNat]? = some (X1 i) := by
    intro r s J' u t hy i hoi
    exact hX1 r _ i (by rw [List.getElem?_map, hy]; rfl) hoi
  have hlen : (out.map (·.2)).length = cl.length := by rw [List.length_map, l1, hG.size, hD.nranks]
  have hsum : (out.map (·.2)).sum = fun k => ∑ i ∈ Finset.range G.length, |X1 i k - (if jacobi then T else X) i k| := by
    rw [sum_ranks cl (out.map (·.2)) (fun i k => |X1 i k - (if jacobi then T else X) i k|) hlen, hD.len]
    · funext k; rw [Finset.sum_apply]
    · intro r n t hn ht
      rw [List.getElem?_map] at ht
      obtain ⟨y, hy, rfl⟩ := Option.map_eq_some_iff.1 ht
      obtain ⟨x, s, J', u, hx, hs, rfl, _⟩ := hback hy
      have hH := hD.holds r x hx
      have hxn : x.nOwn = n := by
        have := hH.cellMap.faithful.size
        rw [hn] at this
        exact (Option.some.inj this).symm
      show (∑ l ∈ Finset.range x.nOwn, _) = _
      rw [hxn]
      refine Finset.sum_congr rfl fun l hl => ?_
      have hl : l < x.nOwn := by rw [hxn]; exact Finset.mem_range.1 hl
      obtain ⟨hi, hoi⟩ := is_own_add hH hl
      have e2 := hval hy _ hoi
      have e3 : (if jacobi then s.tmp else s.x)[l]? = some ((if jacobi then T else X) (before cl r + l)) := by
        cases jacobi
        · exact hX r x s _ _ hx hs hi
        · have := hT r s _ hs hoi
          rwa [is_unique hH (own_index hH hoi).1 hi] at this
      rw [is_unique hH (own_index hH hoi).1 hi] at e2
      simp only [List.getD_eq_getElem?_getD, e2, e3, Option.getD_some]
  refine ⟨out.map (·.1), X1, ?_, hG', (fun r s i hs ho => hX1 r s i hs ho), ?_, ?_⟩
  · simp only [sgsAll]
    rw [e1]
    simp only [Res.ok_bind, hsum]
  · intro r s' i hs' hoi
    rw [List.getElem?_map] at hs'
    obtain ⟨y, hy, rfl⟩ := Option.map_eq_some_iff.1 hs'
    obtain ⟨x, s, J', u, hx, hs, rfl, _⟩ := hback hy
    cases jacobi
    · exact hT r s i hs hoi
    · exact hval hy i hoi
  · intro r i hoi
    have hr : r < out.length := by rw [l1, hG.size, hD.nranks]; exact hoi.1
    have hy := List.getElem?_eq_getElem hr
    obtain ⟨x, s, J', u, hx, hs, ey, _, _, _, h5⟩ := hback hy
    rw [ey] at hy
    have hH := hD.holds r x hx
    have h6 := h5 _ (own_index hH hoi).2
    rw [hpos hoi, List.getD_eq_getElem?_getD, hval hy i hoi, Option.getD_some] at h6
    have hoff : (off G F (firstSide E F) mate cpl i fun i' => if Seen cl jacobi fwd r i i' then u.getD (loc x i') 0 else X i') =
        off G F (firstSide E F) mate cpl i fun i' => if Seen cl jacobi fwd r i i' then X1 i' else X i' := by
      refine off_congr fun j _ i' _ => ?_
      by_cases hS : Seen cl jacobi fwd r i i'
      · rw [if_pos hS, if_pos hS, loc_eq hH (own_index hH hS.2.1).1, List.getD_eq_getElem?_getD, hval hy i' hS.2.1, Option.getD_some]
      · rw [if_neg hS, if_neg hS]
    rw [hoff] at h6
    have h7 := congrArg (fun v => D i *ᵥ v) h6
    simp only [solve_iff (hR i (own_lt hD hoi)).2] at h7
    rw [h7, sub_add_cancel]

/-! ## `doPrecondition` -/

/-- the two sweeps with the exchange of ghost values after each -/
structure TwoSweeps (cl : List Nat) (G : List Cell) (D : Nat → Matrix (Fin m) (Fin m) K) (A : Nat → (Nat → Fin m → K) → Fin m → K) (b : Nat → Fin m → K)
    (jacobi : Bool) (X X1 X' : Nat → Fin m → K) : Prop where
  first : ∀ r i, Owns cl r (i : Nat) → ∀ Z : Nat → Fin m → K, (∀ i', (Seen cl jacobi true r i i' → Z i' = X1 i') ∧ (¬ Seen cl jacobi true r i i' → Z i' = X i')) →
    D i *ᵥ X1 i + A i Z = b i
  second : ∀ r i, Owns cl r (i : Nat) → ∀ Z : Nat → Fin m → K, (∀ i', (Seen cl jacobi false r i i' → Z i' = X' i') ∧ (¬ Seen cl jacobi false r i i' → Z i' = X1 i')) →
    D i *ᵥ X' i + A i Z = b i

open Classical in
/-- `doPrecondition` returns on every mesh with regular blocks and does a sweep forwards and one backwards; the residual it
reports is the change the second sweep makes, in both modes.  All ranks end up with the same values. -/
theorem precondition_sweeps (hD : Distributed per cl nl G gc ranks) (hN : Numbered per cl nl G ranks outs F) (hE : Orient per cl G ranks outs F E)
    (hM : Mates per G F mate) (hG : Given cl ranks outs rs D cpl b) (hR : Regular G D) {X : Nat → Fin m → K} (hX : Has cl ranks rs X) (jacobi : Bool) :
    ∃ rs' X1 X', precondition gc jacobi rs = .ok (rs', fun k => ∑ i ∈ Finset.range G.length, |X' i k - X1 i k|) ∧
      Given cl ranks outs rs' D cpl b ∧ Has cl ranks rs' X' ∧ TwoSweeps cl G D (off G F (firstSide E F) mate cpl) b jacobi X X1 X' := by
  obtain ⟨T, hT⟩ := own_exists (u := fun s => s.tmp) hD hG.size (fun r x s hx hs => (hG.lens r x s hx hs).2)
  obtain ⟨rs1, X1, e1, g1, o1, t1, q1⟩ := sgs_sweep hD hN hE hM hG hR hX hT jacobi true
  obtain ⟨rs2, e2, g2, h2, t2⟩ := pull_spec hD hN g1 o1
  obtain ⟨rs3, X', e3, g3, o3, _, q3⟩ := sgs_sweep hD hN hE hM g2 hR h2 (t2 _ t1) jacobi false
  obtain ⟨rs4, e4, g4, h4, _⟩ := pull_spec hD hN g3 o3
  refine ⟨rs4, X1, X', ?_, g4, h4, ⟨?_, ?_⟩⟩
  · simp only [precondition, e1, Res.ok_bind, e2, e3, e4]
    cases jacobi <;> rfl
  · intro r i ho Z hZ
    rw [← q1 r i ho]
    congr 1
    refine off_congr fun j _ i' _ => ?_
    by_cases hS : Seen cl jacobi true r i i'
    · rw [if_pos hS, (hZ i').1 hS]
    · rw [if_neg hS, (hZ i').2 hS]
  · intro r i ho Z hZ
    rw [← q3 r i ho]
    congr 1
    refine off_congr fun j _ i' _ => ?_
    by_cases hS : Seen cl jacobi false r i i'
    · rw [if_pos hS, (hZ i').1 hS]
    · rw [if_neg hS, (hZ i').2 hS]

section Ordered

variable [IsStrictOrderedRing K]

/-- If the reported residual is zero, what `doPrecondition` leaves solves the system of the whole mesh; and a solution is
left as it is, with residual zero. -/
theorem precondition_solves (hD : Distributed per cl nl G gc ranks) (hN : Numbered per cl nl G ranks outs F) (hE : Orient per cl G ranks outs F E)
    (hM : Mates per G F mate) (hG : Given cl ranks outs rs D cpl b) (hR : Regular G D) {X : Nat → Fin m → K} (hX : Has cl ranks rs X) (jacobi : Bool) :
    ∃ rs' res X', precondition gc jacobi rs = .ok (rs', res) ∧ Given cl ranks outs rs' D cpl b ∧ Has cl ranks rs' X' ∧
      (res = 0 → ∀ i < G.length, D i *ᵥ X' i + off G F (firstSide E F) mate cpl i X' = b i) ∧
      ((∀ i < G.length, D i *ᵥ X i + off G F (firstSide E F) mate cpl i X = b i) → res = 0 ∧ ∀ i < G.length, X' i = X i) := by
  classical
  obtain ⟨rs', X1, X', e, g, h, ⟨h1, h2⟩⟩ := precondition_sweeps hD hN hE hM hG hR hX jacobi
  refine ⟨rs', _, X', e, g, h, ?_, ?_⟩
  · intro hz i hi
    have heq : ∀ i < G.length, X' i = X1 i := by
      intro i hi
      funext k
      have := congrFun hz k
      have h3 := (Finset.sum_eq_zero_iff_of_nonneg (fun i _ => abs_nonneg (X' i k - X1 i k))).1 this i (Finset.mem_range.2 hi)
      exact sub_eq_zero.1 (abs_eq_zero.1 h3)
    obtain ⟨r, hr⟩ := owner hD hi
    rw [← h2 r i hr (fun i' => if Seen cl jacobi false r i i' then X' i' else X1 i') (fun i' => ⟨fun hS => if_pos hS, fun hS => if_neg hS⟩)]
    congr 1
    refine off_congr fun j hj i' hmt => ?_
    rw [heq i' (mate_lt hM hj hmt), ite_self]
  · intro hA
    -- one sweep leaves a solution as it is
    have key : ∀ (fwd : Bool) (Y Y' : Nat → Fin m → K), (∀ i < G.length, D i *ᵥ Y i + off G F (firstSide E F) mate cpl i Y = b i) →
        (∀ r i, Owns cl r (i : Nat) → ∀ Z : Nat → Fin m → K, (∀ i', (Seen cl jacobi fwd r i i' → Z i' = Y' i') ∧ (¬ Seen cl jacobi fwd r i i' → Z i' = Y i')) →
          D i *ᵥ Y' i + off G F (firstSide E F) mate cpl i Z = b i) → ∀ i < G.length, Y' i = Y i := by
      intro fwd Y Y' hY hs
      have step : ∀ r i, Owns cl r (i : Nat) → (∀ i', Seen cl jacobi fwd r i i' → Y' i' = Y i') → Y' i = Y i := by
        intro r i hr hS
        have hi := own_lt hD hr
        have h3 := hs r i hr Y (fun i' => ⟨fun h => (hS i' h).symm, fun _ => rfl⟩)
        rw [← hY i hi] at h3
        exact solve_inj (hR i hi).2 (add_right_cancel h3)
      cases fwd with
      | true =>
          intro i
          induction i using Nat.strong_induction_on with
          | _ i ih =>
              intro hi
              obtain ⟨r, hr⟩ := owner hD hi
              exact step r i hr fun i' hS => ih i' (by simpa using hS.2.2) (own_lt hD hS.2.1)
      | false =>
          have : ∀ k i, G.length - i = k → i < G.length → Y' i = Y i := by
            intro k
            induction k using Nat.strong_induction_on with
            | _ k ih =>
                intro i hk hi
                obtain ⟨r, hr⟩ := owner hD hi
                refine step r i hr fun i' hS => ?_
                have h3 : i < i' := by simpa using hS.2.2
                have h4 := own_lt hD hS.2.1
                exact ih (G.length - i') (by omega) i' rfl h4
          exact fun i hi => this _ i rfl hi
    have k1 := key true X X1 hA h1
    have hA1 : ∀ i < G.length, D i *ᵥ X1 i + off G F (firstSide E F) mate cpl i X1 = b i := by
      intro i hi
      rw [k1 i hi, ← hA i hi]
      congr 1
      exact off_congr fun j hj i' hmt => k1 i' (mate_lt hM hj hmt)
    have k2 := key false X1 X' hA1 h2
    refine ⟨?_, fun i hi => by rw [k2 i hi, k1 i hi]⟩
    funext k
    refine Finset.sum_eq_zero fun i hi => ?_
    rw [k2 i (Finset.mem_range.1 hi), sub_self, abs_zero]

/-- If solving each cell for its neighbours' errors shrinks the error by `q` (which is what diagonal dominance gives), one
call of `doPrecondition` shrinks the error by `q * q`, in both modes and whatever the partition.  `ν` is any size of
vectors. -/
theorem precondition_contracts (hD : Distributed per cl nl G gc ranks) (hN : Numbered per cl nl G ranks outs F) (hE : Orient per cl G ranks outs F E)
    (hM : Mates per G F mate) (hG : Given cl ranks outs rs D cpl b) (hR : Regular G D) {X : Nat → Fin m → K} (hX : Has cl ranks rs X) (jacobi : Bool)
    (hadd : ∀ q s v w, cpl q s (v - w) = cpl q s v - cpl q s w) (ν : (Fin m → K) → K) (hν : ∀ v, ν (-v) = ν v) {q : K} (hq0 : 0 ≤ q) (hq1 : q ≤ 1)
    (hdom : ∀ i < G.length, ∀ (e : Nat → Fin m → K) (c : K), 0 ≤ c → (∀ j < nSides G i, ∀ i', mate i j = some i' → ν (e i') ≤ c) →
      ν ((D i)⁻¹ *ᵥ off G F (firstSide E F) mate cpl i e) ≤ q * c)
    {S : Nat → Fin m → K} (hS : ∀ i < G.length, D i *ᵥ S i + off G F (firstSide E F) mate cpl i S = b i) {c : K} (hc : 0 ≤ c)
    (herr : ∀ i < G.length, ν (X i - S i) ≤ c) :
    ∃ rs' res X', precondition gc jacobi rs = .ok (rs', res) ∧ Has cl ranks rs' X' ∧ ∀ i < G.length, ν (X' i - S i) ≤ q * (q * c) := by
  classical
  obtain ⟨rs', X1, X', e, g, h, ⟨h1, h2⟩⟩ := precondition_sweeps hD hN hE hM hG hR hX jacobi
  refine ⟨rs', _, X', e, h, ?_⟩
  have hsub : ∀ i (Y Z : Nat → Fin m → K), off G F (firstSide E F) mate cpl i (fun i' => Y i' - Z i') =
      off G F (firstSide E F) mate cpl i Y - off G F (firstSide E F) mate cpl i Z := by
    intro i Y Z
    rw [off, off, off, ← Finset.sum_sub_distrib]
    refine Finset.sum_congr rfl fun j _ => ?_
    cases mate i j with
    | none => simp
    | some i' => exact hadd _ _ _ _
  have key : ∀ (fwd : Bool) (Y Y' : Nat → Fin m → K) (c : K), 0 ≤ c → (∀ i < G.length, ν (Y i - S i) ≤ c) →
      (∀ r i, Owns cl r (i : Nat) → ∀ Z : Nat → Fin m → K, (∀ i', (Seen cl jacobi fwd r i i' → Z i' = Y' i') ∧ (¬ Seen cl jacobi fwd r i i' → Z i' = Y i')) →
        D i *ᵥ Y' i + off G F (firstSide E F) mate cpl i Z = b i) → ∀ i < G.length, ν (Y' i - S i) ≤ q * c := by
    intro fwd Y Y' c hc hY hs
    have hqc : q * c ≤ c := by nlinarith
    have step : ∀ r i, Owns cl r (i : Nat) → (∀ i', Seen cl jacobi fwd r i i' → ν (Y' i' - S i') ≤ q * c) → ν (Y' i - S i) ≤ q * c := by
      intro r i hr hSn
      have hi := own_lt hD hr
      have h3 := hs r i hr (fun i' => if Seen cl jacobi fwd r i i' then Y' i' else Y i') (fun i' => ⟨fun h => if_pos h, fun h => if_neg h⟩)
      have h4 : D i *ᵥ (Y' i - S i) = -off G F (firstSide E F) mate cpl i (fun i' => (if Seen cl jacobi fwd r i i' then Y' i' else Y i') - S i') := by
        rw [hsub, mulVec_sub, eq_sub_of_add_eq h3, eq_sub_of_add_eq (hS i hi)]
        abel
      have h5 : Y' i - S i = -((D i)⁻¹ *ᵥ off G F (firstSide E F) mate cpl i (fun i' => (if Seen cl jacobi fwd r i i' then Y' i' else Y i') - S i')) := by
        rw [← mulVec_neg, ← h4, mulVec_mulVec, nonsing_inv_mul _ (hR i hi).2, one_mulVec]
      rw [h5, hν]
      refine hdom i hi _ c hc fun j hj i' hmt => ?_
      by_cases hSe : Seen cl jacobi fwd r i i'
      · simp only [if_pos hSe]
        exact (hSn i' hSe).trans hqc
      · simp only [if_neg hSe]
        exact hY i' (mate_lt hM hj hmt)
    cases fwd with
    | true =>
        intro i
        induction i using Nat.strong_induction_on with
        | _ i ih =>
            intro hi
            obtain ⟨r, hr⟩ := owner hD hi
            exact step r i hr fun i' hS => ih i' (by simpa using hS.2.2) (own_lt hD hS.2.1)
    | false =>
        have : ∀ k i, G.length - i = k → i < G.length → ν (Y' i - S i) ≤ q * c := by
          intro k
          induction k using Nat.strong_induction_on with
          | _ k ih =>
              intro i hk hi
              obtain ⟨r, hr⟩ := owner hD hi
              refine step r i hr fun i' hS => ?_
              have h3 : i < i' := by simpa using hS.2.2
              have h4 := own_lt hD hS.2.1
              exact ih (G.length - i') (by omega) i' rfl h4
        exact fun i hi => this _ i rfl hi
  exact key false X1 X' (q * c) (mul_nonneg hq0 hc) (key true X X1 c hc herr h1) h2

end Ordered

/-! ## LU-SGS -/

open Classical in
theorem lusgs_forward (hD : Distributed per cl nl G gc ranks) (hN : Numbered per cl nl G ranks outs F) (hE : Orient per cl G ranks outs F E)
    (hM : Mates per G F mate) (hG : Given cl ranks outs rs D cpl b) (hR : Regular G D) :
    ∃ rs' Y, forRanks (fun _ (s : Rk m K) => do
        let r ← lusgsForward s.sys s.J s.rhs s.x
        .ok ({ s with J := r.1, x := r.2 } : Rk m K)) 0 rs = .ok rs' ∧ Given cl ranks outs rs' D cpl b ∧ HasOwn cl rs' Y ∧
      ∀ r i, Owns cl r (i : Nat) → D i *ᵥ Y i + offIf G F (firstSide E F) mate cpl i (fun i' => Owns cl r i' ∧ i' < i) Y = b i := by
  obtain ⟨rs', e1, l1, h1⟩ := N2C.forRanks_all (fun _ (s : Rk m K) => do
    let r ← lusgsForward s.sys s.J s.rhs s.x
    .ok ({ s with J := r.1, x := r.2 } : Rk m K))
    (fun r s s' => ∀ x, ranks[r]? = some x → ∃ J' u, s' = { s with J := J', x := u } ∧ Same s.J J' ∧ J'.Sound ∧
      u.length = x.cells.length ∧ ∀ l < x.nOwn, u.getD l 0 = (D (before cl r + l))⁻¹ *ᵥ (b (before cl r + l) -
        offIf G F (firstSide E F) mate cpl (before cl r + l) (fun i' => Owns cl r i' ∧ i' < before cl r + l) fun i' => u.getD (loc x i') 0)) rs (by
    intro r s hs
    have hr : r < ranks.length := by rw [← hG.size]; exact (List.getElem?_eq_some_iff.1 hs).1
    have hx := List.getElem?_eq_getElem hr
    obtain ⟨J', u, h2, h3⟩ := forward_rank hD hN hE hM hG hR hx hs
    rw [h2]
    refine ⟨_, rfl, ?_⟩
    intro x hx'
    rw [hx] at hx'; cases hx'
    exact ⟨J', u, rfl, h3⟩)
  have hback : ∀ {r : Nat} {s' : Rk m K}, rs'[r]? = some s' → ∃ x s, ranks[r]? = some x ∧ rs[r]? = some s ∧ ∃ J' u, s' = { s with J := J', x := u } ∧ Same s.J J' ∧ J'.Sound ∧
      u.length = x.cells.length ∧ ∀ l < x.nOwn, u.getD l 0 = (D (before cl r + l))⁻¹ *ᵥ (b (before cl r + l) -
        offIf G F (firstSide E F) mate cpl (before cl r + l) (fun i' => Owns cl r i' ∧ i' < before cl r + l) fun i' => u.getD (loc x i') 0) := by
    intro r y hy
    have hr : r < rs.length := by rw [← l1]; exact (List.getElem?_eq_some_iff.1 hy).1
    have hs := List.getElem?_eq_getElem hr
    have hx := List.getElem?_eq_getElem (by rw [← hG.size]; exact hr : r < ranks.length)
    exact ⟨_, _, hx, hs, h1 r _ y hs hy _ hx⟩
  have hG' : Given cl ranks outs rs' D cpl b := by
    refine given_of hG l1 ?_
    intro r x s' hx hs'
    obtain ⟨x', s, hx', hs, J', u, rfl, h2, h3, h4, _⟩ := hback hs'
    rw [hx] at hx'; cases hx'
    exact ⟨s, hs, rfl, h2, h3, rfl, h4, (hG.lens r x s hx hs).2⟩
  obtain ⟨Y, hY⟩ := own_exists (u := fun s => s.x) hD hG'.size (fun r x s hx hs => (hG'.lens r x s hx hs).1)
  refine ⟨rs', Y, e1, hG', hY, ?_⟩
  intro r i hoi
  have hr : r < rs'.length := by rw [l1, hG.size, hD.nranks]; exact hoi.1
  have hy := List.getElem?_eq_getElem hr
  obtain ⟨x, s, hx, hs, J', u, ey, _, _, _, h5⟩ := hback hy
  rw [ey] at hy
  have hH := hD.holds r x hx
  have h6 := h5 _ (own_index hH hoi).2
  have hYu : ∀ i : Nat, Owns cl r i → u[((i : Int) - before cl r).toNat]? = some (Y i) := fun i ho => hY r _ i hy ho
  rw [show before cl r + ((i : Int) - before cl r).toNat = i by obtain ⟨_, h, _⟩ := hoi; omega, List.getD_eq_getElem?_getD, hYu i hoi, Option.getD_some] at h6
  have hoff : (offIf G F (firstSide E F) mate cpl i (fun i' => Owns cl r i' ∧ i' < i) fun i' => u.getD (loc x i') 0) =
      offIf G F (firstSide E F) mate cpl i (fun i' => Owns cl r i' ∧ i' < i) Y := by
    refine offIf_congr fun i' hP => ?_
    rw [loc_eq hH (own_index hH hP.1).1, List.getD_eq_getElem?_getD, hYu i' hP.1, Option.getD_some]
  rw [hoff] at h6
  have h7 := congrArg (fun v => D i *ᵥ v) h6
  simp only [solve_iff (hR i (own_lt hD hoi)).2] at h7
  rw [h7, sub_add_cancel]

open Classical in
/-- LU-SGS on all ranks: a forward substitution with the own cells before each cell, then a backward one with the own cells
after it; cells of other ranks enter in the backward one with the values of the forward one. -/
theorem lusgs_factors (hD : Distributed per cl nl G gc ranks) (hN : Numbered per cl nl G ranks outs F) (hE : Orient per cl G ranks outs F E)
    (hM : Mates per G F mate) (hG : Given cl ranks outs rs D cpl b) (hR : Regular G D) :
    ∃ rs' Y X', lusgs gc rs = .ok rs' ∧ Given cl ranks outs rs' D cpl b ∧ Has cl ranks rs' X' ∧ ∀ r i, Owns cl r (i : Nat) →
      D i *ᵥ Y i + offIf G F (firstSide E F) mate cpl i (fun i' => Owns cl r i' ∧ i' < i) Y = b i ∧
      D i *ᵥ X' i + (offIf G F (firstSide E F) mate cpl i (fun i' => Owns cl r i' ∧ i < i') X' + offIf G F (firstSide E F) mate cpl i (fun i' => ¬ Owns cl r i') Y) = D i *ᵥ Y i := by
  obtain ⟨rs1, Y, e1, g1, o1, q1⟩ := lusgs_forward hD hN hE hM hG hR
  obtain ⟨rs2, e2, g2, h2, _⟩ := pull_spec hD hN g1 o1
  obtain ⟨rs3, e3, l3, h3⟩ := N2C.forRanks_all (fun _ (s : Rk m K) => do
    let r ← lusgsBackward s.sys s.J s.x
    .ok ({ s with J := r.1, x := r.2 } : Rk m K))
    (fun r s s' => ∀ x, ranks[r]? = some x → ∃ J' u, s' = { s with J := J', x := u } ∧ Same s.J J' ∧ J'.Sound ∧
      u.length = x.cells.length ∧ ∀ l < x.nOwn, u.getD l 0 = Y (before cl r + l) - (D (before cl r + l))⁻¹ *ᵥ
        (offIf G F (firstSide E F) mate cpl (before cl r + l) (fun i' => Owns cl r i' ∧ before cl r + l < i') (fun i' => u.getD (loc x i') 0) +
         offIf G F (firstSide E F) mate cpl (before cl r + l) (fun i' => ¬ Owns cl r i') Y)) rs2 (by
    intro r s hs
    have hr : r < ranks.length := by rw [← g2.size]; exact (List.getElem?_eq_some_iff.1 hs).1
    have hx := List.getElem?_eq_getElem hr
    obtain ⟨J', u, h4, h5⟩ := backward_rank hD hN hE hM g2 hR h2 hx hs
    rw [h4]
    refine ⟨_, rfl, ?_⟩
    intro x hx'
    rw [hx] at hx'; cases hx'
    exact ⟨J', u, rfl, h5⟩)
  have hback : ∀ {r : Nat} {s' : Rk m K}, rs3[r]? = some s' → ∃ x s, ranks[r]? = some x ∧ rs2[r]? = some s ∧ ∃ J' u, s' = { s with J := J', x := u } ∧ Same s.J J' ∧ J'.Sound ∧
      u.length = x.cells.length ∧ ∀ l < x.nOwn, u.getD l 0 = Y (before cl r + l) - (D (before cl r + l))⁻¹ *ᵥ
        (offIf G F (firstSide E F) mate cpl (before cl r + l) (fun i' => Owns cl r i' ∧ before cl r + l < i') (fun i' => u.getD (loc x i') 0) +
         offIf G F (firstSide E F) mate cpl (before cl r + l) (fun i' => ¬ Owns cl r i') Y) := by
    intro r y hy
    have hr : r < rs2.length := by rw [← l3]; exact (List.getElem?_eq_some_iff.1 hy).1
    have hs := List.getElem?_eq_getElem hr
    have hx := List.getElem?_eq_getElem (by rw [← g2.size]; exact hr : r < ranks.length)
    exact ⟨_, _, hx, hs, h3 r _ y hs hy _ hx⟩
  have g3 : Given cl ranks outs rs3 D cpl b := by
    refine given_of g2 l3 ?_
    intro r x s' hx hs'
    obtain ⟨x', s, hx', hs, J', u, rfl, h2, h3, h4, _⟩ := hback hs'
    rw [hx] at hx'; cases hx'
    exact ⟨s, hs, rfl, h2, h3, rfl, h4, (g2.lens r x s hx hs).2⟩
  obtain ⟨X', hX'⟩ := own_exists (u := fun s => s.x) hD g3.size (fun r x s hx hs => (g3.lens r x s hx hs).1)
  obtain ⟨rs4, e4, g4, h4, _⟩ := pull_spec hD hN g3 hX'
  refine ⟨rs4, Y, X', ?_, g4, h4, fun r i hoi => ⟨q1 r i hoi, ?_⟩⟩
  · simp only [lusgs]
    rw [e1]
    simp only [Res.ok_bind]
    rw [e2]
    simp only [Res.ok_bind]
    rw [e3]
    simp only [Res.ok_bind]
    rw [e4]
  have hr : r < rs3.length := by rw [l3, g2.size, hD.nranks]; exact hoi.1
  have hy := List.getElem?_eq_getElem hr
  obtain ⟨x, s, hx, hs, J', u, ey, _, _, _, h5⟩ := hback hy
  rw [ey] at hy
  have hH := hD.holds r x hx
  have h6 := h5 _ (own_index hH hoi).2
  have hYu : ∀ i : Nat, Owns cl r i → u[((i : Int) - before cl r).toNat]? = some (X' i) := fun i ho => hX' r _ i hy ho
  rw [show before cl r + ((i : Int) - before cl r).toNat = i by obtain ⟨_, h, _⟩ := hoi; omega, List.getD_eq_getElem?_getD, hYu i hoi, Option.getD_some] at h6
  have hoff : (offIf G F (firstSide E F) mate cpl i (fun i' => Owns cl r i' ∧ i < i') fun i' => u.getD (loc x i') 0) =
      offIf G F (firstSide E F) mate cpl i (fun i' => Owns cl r i' ∧ i < i') X' := by
    refine offIf_congr fun i' hP => ?_
    rw [loc_eq hH (own_index hH hP.1).1, List.getD_eq_getElem?_getD, hYu i' hP.1, Option.getD_some]
  rw [hoff] at h6
  have h7 := congrArg (fun v => D i *ᵥ v) h6
  simp only [mulVec_sub, solve_iff (hR i (own_lt hD hoi)).2] at h7
  rw [h7, sub_add_cancel]

/-- On one rank this is the factored solve `(D + L) D⁻¹ (D + U) X' = b`. -/
theorem lusgs_one_rank (hD : Distributed per cl nl G gc ranks) (hN : Numbered per cl nl G ranks outs F) (hE : Orient per cl G ranks outs F E)
    (hM : Mates per G F mate) (hG : Given cl ranks outs rs D cpl b) (hR : Regular G D) (hone : ranks.length = 1) :
    ∃ rs' X' Y, lusgs gc rs = .ok rs' ∧ Has cl ranks rs' X' ∧
      (∀ i < G.length, D i *ᵥ Y i = D i *ᵥ X' i + offIf G F (firstSide E F) mate cpl i (fun i' => i < i') X') ∧
      ∀ i < G.length, D i *ᵥ Y i + offIf G F (firstSide E F) mate cpl i (fun i' => i' < i) Y = b i := by
  classical
  obtain ⟨rs', Y, X', e, _, h, hq⟩ := lusgs_factors hD hN hE hM hG hR
  have hown : ∀ i < G.length, Owns cl 0 (i : Nat) := by
    intro i hi
    obtain ⟨r, hr⟩ := owner hD hi
    have : r < 1 := by rw [← hone, hD.nranks]; exact hr.1
    rwa [show r = 0 by omega] at hr
  have hall : ∀ i (P Q : Nat → Prop) (Z : Nat → Fin m → K), (∀ i' < G.length, (P i' ↔ Q i')) →
      offIf G F (firstSide E F) mate cpl i P Z = offIf G F (firstSide E F) mate cpl i Q Z := by
    intro i P Q Z hPQ
    refine Finset.sum_congr rfl fun j hj => ?_
    cases hmt : mate i j with
    | none => rfl
    | some i' => simp only [hPQ i' (mate_lt hM (Finset.mem_range.1 hj) hmt)]
  refine ⟨rs', X', Y, e, h, fun i hi => ?_, fun i hi => ?_⟩
  · rw [← (hq 0 i (hown i hi)).2, hall i (fun i' => Owns cl 0 i' ∧ i < i') (fun i' => i < i') X' (fun i' hi' => by simp [hown i' hi']),
      hall i (fun i' => ¬ Owns cl 0 i') (fun _ => False) Y (fun i' hi' => by simp [hown i' hi'])]
    have : offIf G F (firstSide E F) mate cpl i (fun _ => False) Y = 0 := by
      refine Finset.sum_eq_zero fun j _ => ?_
      cases mate i j <;> simp
    rw [this, add_zero]
  · rw [← (hq 0 i (hown i hi)).1, hall i (fun i' => Owns cl 0 i' ∧ i' < i) (fun i' => i' < i) Y (fun i' hi' => by simp [hown i' hi'])]

/-! ## The inverses of the diagonal blocks -/

/-- A history of writes, clears and inversions that never writes between an inversion and the next `clearValues` keeps the
inverses right. -/
theorem history_sound : ∀ (ops : List (Op m K)) (J J' : JDiag m K), J.Sound → Disciplined J.hasInvert ops → runOps J ops = .ok J' → J'.Sound := by
  intro ops
  induction ops with
  | nil => intro J J' hJ _ h; cases Res.ok.inj h; exact hJ
  | cons o os ih =>
      intro J J' hJ hd h
      obtain ⟨J1, h1, h2⟩ := (Res.bind_ok_iff _ _ _).1 h
      cases o with
      | clear =>
          have := Res.ok.inj h1
          subst this
          have hi : J.clear.hasInvert = false := by unfold JDiag.clear; split <;> rfl
          refine ih _ _ (fun h => by rw [hi] at h; cases h) ?_ h2
          rw [hi]; exact hd
      | setBlock i A =>
          have hd' : J.hasInvert = false ∧ Disciplined J.hasInvert os := hd
          have hi : J1.hasInvert = false := by
            unfold Op.run JDiag.setBlock at h1
            obtain ⟨_, _, h3⟩ := (Res.bind_ok_iff _ _ _).1 h1
            obtain ⟨_, _, h4⟩ := (Res.bind_ok_iff _ _ _).1 h3
            have := Res.ok.inj h4
            subst this
            exact hd'.1
          refine ih _ _ (fun h => by rw [hi] at h; cases h) ?_ h2
          rw [hi, ← hd'.1]; exact hd'.2
      | setDiag i d =>
          have hd' : J.hasInvert = false ∧ Disciplined J.hasInvert os := hd
          have hi : J1.hasInvert = false := by
            unfold Op.run JDiag.setDiag at h1
            obtain ⟨_, _, h3⟩ := (Res.bind_ok_iff _ _ _).1 h1
            obtain ⟨_, _, h4⟩ := (Res.bind_ok_iff _ _ _).1 h3
            have := Res.ok.inj h4
            subst this
            exact hd'.1
          refine ih _ _ (fun h => by rw [hi] at h; cases h) ?_ h2
          rw [hi, ← hd'.1]; exact hd'.2
      | getInvert =>
          have h1 : J.getInvert = .ok J1 := h1
          refine ih _ _ (getInvert_sound hJ h1) ?_ h2
          rw [(getInvert_same h1).2]; exact hd

/-- After such a history, `MatVecLeftInvert` and `MatVecLeft` undo each other, in either order, on every cell, and
inverting does not change the blocks. -/
theorem inverse_undoes {ops : List (Op m K)} {J J' J'' : JDiag m K} (hJ : J.Sound) (hd : Disciplined J.hasInvert ops) (h : runOps J ops = .ok J')
    (hi : J'.getInvert = .ok J'') (l : Nat) (A : Matrix (Fin m) (Fin m) K) (hA : J'.getValue l = .ok A) (v : Fin m → K) :
    J''.getValue l = .ok A ∧ (∃ w, J''.leftInvert l v = .ok w ∧ J''.left l w = .ok v) ∧ ∃ w, J''.left l v = .ok w ∧ J''.leftInvert l w = .ok v := by
  obtain ⟨h1, h2⟩ := getInvert_same hi
  have hs := getInvert_sound (history_sound ops J J' hJ hd h) hi
  have hA' : J''.getValue l = .ok A := by rw [h1.value]; exact hA
  have hdet : IsUnit A.det := by
    have h3 := hs h2
    obtain ⟨h4, h5⟩ := size_of_value hA'
    cases hb : J''.block with
    | true =>
        rw [hb, if_pos rfl] at h3
        have h6 := h4 hb
        have hl : l < J''.dataInv.length := by rw [h3.1]; exact (List.getElem?_eq_some_iff.1 h6).1
        exact (isUnit_iff_isUnit_det A).1 ((IsUnit.of_mul_eq_one _ (h3.2 l A _ h6 (List.getElem?_eq_getElem hl)).1))
    | false =>
        rw [hb, if_neg (by simp)] at h3
        obtain ⟨d, h6, rfl⟩ := h5 hb
        have hl : l < J''.diagInv.length := by rw [h3.1]; exact (List.getElem?_eq_some_iff.1 h6).1
        have h7 := h3.2 l d _ h6 (List.getElem?_eq_getElem hl)
        rw [det_diagonal]
        exact isUnit_iff_ne_zero.2 (Finset.prod_ne_zero_iff.2 fun k _ h0 => by have := h7 k; rw [h0, zero_mul] at this; exact zero_ne_one this)
  refine ⟨hA', ⟨_, leftInvert_eq hs h2 hA' v, ?_⟩, ⟨_, left_eq hA' v, ?_⟩⟩
  · rw [left_eq hA', solve_iff hdet]
  · rw [leftInvert_eq hs h2 hA', mulVec_mulVec, nonsing_inv_mul _ hdet, one_mulVec]

theorem vec1 (a : ℚ) : (fun _ : Fin 1 => a) = ![a] := by funext k; simp

/-- a history: clear, write, invert, clear, write again, invert -/
example (J : JDiag 1 ℚ) (hb : J.block = false) (hl : J.diag.length = 1) : ∃ ops J', Disciplined J.hasInvert ops ∧ runOps J ops = .ok J' ∧
    J'.hasInvert = true ∧ J'.leftInvert 0 ![6] = .ok ![2] := by
  refine ⟨[.clear, .setDiag 0 ![5], .getInvert, .clear, .setDiag 0 ![3], .getInvert], ⟨false, J.data, [![3]], J.dataInv, [![3⁻¹]], true⟩,
    by simp [Disciplined], ?_, rfl, ?_⟩
  · match J, hb, hl with
    | ⟨_, data, [d], di, dgi, hi⟩, rfl, _ =>
    simp [runOps, Op.run, JDiag.clear, JDiag.setDiag, JDiag.getInvert, Res.assert, idx, forRanks, invertVec, Res.ok_bind, vec1]
  · simp [JDiag.leftInvert, idx, Res.ok_bind]
    norm_num [vec1]

/-- Nothing marks the inverses as outdated when a block is written through `getDiag`: the next inversion does nothing and
the product is with the inverse of the old block. -/
theorem stale_inverse : ∃ (J J' : JDiag 1 ℚ), J.Sound ∧ runOps J [.getInvert, .setDiag 0 ![2], .getInvert] = .ok J' ∧
    J'.getValue 0 = .ok (diagonal ![2]) ∧ J'.leftInvert 0 ![1] = .ok ![1] ∧ J'.left 0 ![1] = .ok ![2] := by
  refine ⟨⟨false, [], [![1]], [], [], false⟩, ⟨false, [], [![2]], [], [![1]], true⟩, fun h => (by simp at h), ?_, rfl, ?_, ?_⟩
  · simp [runOps, Op.run, JDiag.setDiag, JDiag.getInvert, Res.assert, idx, forRanks, invertVec, Res.ok_bind, vec1]
  · simp [JDiag.leftInvert, idx, Res.ok_bind, vec1]
  · simp [JDiag.left, idx, Res.ok_bind, vec1]

/-! ## A cell next to itself -/

namespace Alone

/-- a periodic direction one cell thick: both sides of face 0 are cell 0 -/
def sys : Sys 1 ℚ := ⟨1, [⟨⟨.line2, [0, 1], []⟩, 0, 0⟩], [[0, 0]], [], [fun _ v => v]⟩
def J : JDiag 1 ℚ := ⟨false, [], [![1]], [], [![1]], true⟩

end Alone

/-- For a cell that is its own neighbour, `LUSGSMatrixVec` has the coupling with itself and `UpdateSGS` leaves it out: the
sweep stops with residual zero at 3, while the product there is 9 and the right-hand side 3. -/
theorem self_coupling : Alone.J.Sound ∧ sgs Alone.sys Alone.J [![3]] [![3]] [![3]] true true = .ok (Alone.J, [![3]], 0) ∧
    matVec Alone.sys Alone.J [![3]] [![0]] = .ok [![9]] := by
  refine ⟨?_, ?_, ?_⟩
  · intro _
    rw [if_neg (by simp [Alone.J])]
    refine ⟨rfl, fun l d e hd he k => ?_⟩
    match l with
    | 0 =>
      cases Option.some.inj hd
      cases Option.some.inj he
      simp
    | l + 1 => simp [Alone.J] at hd
  · simp [sgs, JDiag.getInvert, Alone.J, Alone.sys, order, sweepLoop, sgsBody, rowLoop, at64, idx, Res.ok_bind, JDiag.leftInvert, unInit, vec1]
  · simp [matVec, JDiag.left, Alone.J, Alone.sys, rowLoop, at64, idx, Res.ok_bind, forRanks, unInit]
    norm_num

/-! ## The hypotheses can be met -/

/-- Blocks, couplings, right-hand side and start can be given to the ranks in any way that depends on the global numbers
only. -/
theorem given_exists (hD : Distributed per cl nl G gc ranks) (hN : Numbered per cl nl G ranks outs F) (D : Nat → Matrix (Fin m) (Fin m) K)
    (cpl : Int → Bool → (Fin m → K) → Fin m → K) (b X : Nat → Fin m → K) : ∃ rs, Given cl ranks outs rs D cpl b ∧ Has cl ranks rs X := by
  let mk : RankIn → RankOut → Rk m K := fun x o =>
    ⟨⟨x.nOwn, o.faces, o.c2f, x.cellMap.ghostIndex, (List.range o.faces.length).map fun v : Nat => cpl (numberOf o.faceMap (v : Int))⟩,
      ⟨true, (List.range x.nOwn).map fun l : Nat => D (numberOf x.cellMap (l : Int)).toNat, [], [], [], false⟩,
      (List.range x.nOwn).map fun l : Nat => b (numberOf x.cellMap (l : Int)).toNat,
      (List.range x.cells.length).map fun l : Nat => X (numberOf x.cellMap (l : Int)).toNat, List.replicate x.cells.length 0⟩
  have hget : ∀ {r : Nat} {d : Rk m K}, (List.zipWith mk ranks outs)[r]? = some d →
      ∃ x o, ranks[r]? = some x ∧ outs[r]? = some o ∧ d = mk x o := by
    intro r d h
    rw [List.getElem?_zipWith] at h
    cases hx : ranks[r]? with
    | none => simp [hx] at h
    | some x =>
        cases ho : outs[r]? with
        | none => simp [hx, ho] at h
        | some o =>
            simp only [hx, ho, Option.some.injEq] at h
            exact ⟨x, o, rfl, rfl, h.symm⟩
  refine ⟨List.zipWith mk ranks outs, ⟨by rw [List.length_zipWith, hN.size, Nat.min_self], ?_, ?_, ?_, ?_, ?_, ?_, ?_, ?_⟩, ?_⟩
  · intro r x d hx hd
    obtain ⟨x', o, hx', ho, rfl⟩ := hget hd
    rw [hx] at hx'; cases hx'
    simp [mk]
  · intro r o d ho hd
    obtain ⟨x', o', hx', ho', rfl⟩ := hget hd
    rw [ho] at ho'; cases ho'
    simp [mk]
  · intro r o d q v ho hd hn hq
    obtain ⟨x, o', hx, ho', rfl⟩ := hget hd
    rw [ho] at ho'; cases ho'
    have hlt := face_lt hN ho (by omega) hn hq.1
    rw [Int.toNat_natCast] at hlt
    simp only [mk, List.getElem?_map, List.getElem?_range hlt, Option.map_some, numberOf_eq (face_faithful hN ho) hq.1 (by omega) hn]
  · intro r i d hoi hd
    obtain ⟨x, o, hx, ho, rfl⟩ := hget hd
    have hH := hD.holds r x hx
    obtain ⟨hi, hl⟩ := own_index hH hoi
    simp only [mk, JDiag.getValue, if_true]
    refine (idx_ok_iff _ _ _).2 ?_
    simp only [List.getElem?_map, List.getElem?_range hl, Option.map_some, number_is hH hi, Int.toNat_natCast]
  · intro r x d hx hd
    obtain ⟨x', o, hx', ho, rfl⟩ := hget hd
    rw [hx] at hx'; cases hx'
    simp [mk]
  · intro r d hd
    obtain ⟨x', o, hx', ho, rfl⟩ := hget hd
    intro h
    simp [mk] at h
  · intro r i d hoi hd
    obtain ⟨x, o, hx, ho, rfl⟩ := hget hd
    have hH := hD.holds r x hx
    obtain ⟨hi, hl⟩ := own_index hH hoi
    simp only [mk, List.getElem?_map, List.getElem?_range hl, Option.map_some, number_is hH hi, Int.toNat_natCast]
  · intro r x d hx hd
    obtain ⟨x', o, hx', ho, rfl⟩ := hget hd
    rw [hx] at hx'; cases hx'
    simp [mk]
  · intro r x d i l hx hd hi
    obtain ⟨x', o, hx', ho, rfl⟩ := hget hd
    rw [hx] at hx'; cases hx'
    have hH := hD.holds r x hx
    simp only [mk, List.getElem?_map, List.getElem?_range (is_lt hH hi), Option.map_some, number_is hH hi, Int.toNat_natCast]

/-- two quadrilaterals on two ranks, joined by one face, with blocks `[[4, 1], [0, 4]]` and coupling `-v`: all theorems above
apply, for any right-hand side and start -/
example (per : Bool) (srt : Sorter) (hs : Sorts srt) (b X : Nat → Fin 2 → ℚ) (jacobi : Bool) :
    ∃ gc ranks outs F E mate rs, interpolate per srt gc ranks = .ok outs ∧ Numbered per [1, 1] [4, 2] TwoQuads.mesh ranks outs F ∧
      Given [1, 1] ranks outs rs (fun _ => !![4, 1; 0, 4]) (fun _ _ v => -v) b ∧ Has [1, 1] ranks rs X ∧
      (∃ rs' res X', precondition gc jacobi rs = .ok (rs', res) ∧ Has [1, 1] ranks rs' X' ∧
        (res = 0 → ∀ i < 2, !![4, 1; 0, 4] *ᵥ X' i + off TwoQuads.mesh F (firstSide E F) mate (fun _ _ v => -v) i X' = b i)) ∧
      ∃ rs' X', lusgs gc rs = .ok rs' ∧ Has [1, 1] ranks rs' X' := by
  obtain ⟨gc, ranks, hD, _⟩ := TwoQuads.exists_ranks per
  obtain ⟨outs, _, hI, _⟩ := faces_global per srt hs _ _ _ _ _ hD
  obtain ⟨F, E, mate, hN, hE, hM⟩ := system_exists hs hD hI
  obtain ⟨rs, hG, hX⟩ := given_exists hD hN (fun _ => !![4, 1; 0, 4]) (fun _ _ v => -v) b X
  have hR : Regular TwoQuads.mesh (fun _ => (!![4, 1; 0, 4] : Matrix (Fin 2) (Fin 2) ℚ)) := by
    intro i _
    refine ⟨?_, by rw [det_fin_two_of]; norm_num⟩
    intro k
    match k with
    | 0 => simp
    | 1 => simp
  obtain ⟨rs', res, X', h1, _, h2, h3, _⟩ := precondition_solves hD hN hE hM hG hR hX jacobi
  obtain ⟨rs2, _, X2, h4, _, h5, _⟩ := lusgs_factors hD hN hE hM hG hR
  exact ⟨gc, ranks, outs, F, E, mate, rs, hI, hN, hG, hX, ⟨rs', res, X', h1, h2, h3⟩, rs2, X2, h4, h5⟩

/-- on the same mesh, blocks 8 and coupling `-v`: each call at least quarters the distance to the solution -/
example (per : Bool) (srt : Sorter) (hs : Sorts srt) (S X : Nat → Fin 1 → ℚ) (jacobi : Bool) (c : ℚ) (hc : 0 ≤ c) (herr : ∀ i < 2, |X i 0 - S i 0| ≤ c) :
    ∃ gc ranks outs rs b rs' res X', interpolate per srt gc ranks = .ok outs ∧ Given [1, 1] ranks outs rs (fun _ => diagonal fun _ => 8) (fun _ _ v => -v) b ∧
      Has [1, 1] ranks rs X ∧ precondition gc jacobi rs = .ok (rs', res) ∧ Has [1, 1] ranks rs' X' ∧ ∀ i < 2, |X' i 0 - S i 0| ≤ c / 4 := by
  obtain ⟨gc, ranks, hD, _⟩ := TwoQuads.exists_ranks per
  obtain ⟨outs, _, hI, _⟩ := faces_global per srt hs _ _ _ _ _ hD
  obtain ⟨F, E, mate, hN, hE, hM⟩ := system_exists hs hD hI
  let D : Nat → Matrix (Fin 1) (Fin 1) ℚ := fun _ => diagonal fun _ => 8
  let b : Nat → Fin 1 → ℚ := fun i => D i *ᵥ S i + off TwoQuads.mesh F (firstSide E F) mate (fun _ _ v => -v) i S
  obtain ⟨rs, hG, hX⟩ := given_exists hD hN D (fun _ _ v => -v) b X
  have hdet : IsUnit (diagonal fun _ : Fin 1 => (8 : ℚ)).det := by rw [det_diagonal]; simp
  have hinv : (diagonal fun _ : Fin 1 => (8 : ℚ))⁻¹ = diagonal fun _ => (1 / 8 : ℚ) := by
    apply inv_eq_right_inv
    rw [diagonal_mul_diagonal, ← diagonal_one]
    norm_num
  have hR : Regular TwoQuads.mesh D := fun i _ => ⟨fun k => by simp [D], hdet⟩
  have hsides : ∀ i < 2, nSides TwoQuads.mesh i = 4 := by decide
  obtain ⟨rs', res, X', h1, h2, h3⟩ := precondition_contracts hD hN hE hM hG hR hX jacobi (fun _ _ v w => by abel) (fun v => |v 0|) (fun v => by simp)
    (q := 1 / 2) (by norm_num) (by norm_num) (by
      intro i hi e c hc he
      have hi : i < 2 := hi
      simp only [D, hinv, mulVec_diagonal]
      have h4 : |off TwoQuads.mesh F (firstSide E F) mate (fun _ _ v => -v) i e 0| ≤ 4 * c := by
        rw [off, Finset.sum_apply]
        refine (Finset.abs_sum_le_sum_abs _ _).trans ?_
        have : ∀ j ∈ Finset.range (nSides TwoQuads.mesh i), |(match mate i j with | none => (0 : Fin 1 → ℚ) | some i' => -e i') 0| ≤ c := by
          intro j hj
          cases hmt : mate i j with
          | none => simpa using hc
          | some i' => simpa using he j (Finset.mem_range.1 hj) i' hmt
        refine (Finset.sum_le_sum this).trans ?_
        rw [Finset.sum_const, Finset.card_range, hsides i hi]
        simp
      rw [abs_mul, abs_of_pos (by norm_num : (0 : ℚ) < 1 / 8)]
      linarith) (S := S) (fun i _ => rfl) hc herr
  refine ⟨gc, ranks, outs, rs, b, rs', res, X', hI, hG, hX, h1, h2, fun i hi => (h3 i hi).trans (by linarith)⟩

end DNDSR.Sweep
