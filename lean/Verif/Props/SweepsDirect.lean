import Verif.Proof.SweepsDirectAll

/-!
# C78: the direct preconditioner

Every rank factorizes the couplings of its own cells; ghost cells enter with the values of the last exchange.
-/

namespace DNDSR.Sweep

open DNDSR.Elem DNDSR.IMap DNDSR.MeshAdj
open DNDSR.Faces hiding rename
open DNDSR.Flux (nSides firstSide isSlot_of sum_ranks)
open DNDSR.Direct (LUStruct Blocks WF rename rowOf oldBlock Closed decompose decompose_defined invertDiag solve SymAdj IsReorder InPattern isReorder_re)
open Matrix
open scoped Matrix.Module

variable {m : Nat} {K : Type} [Field K] [LinearOrder K]
variable {per : Bool} {cl nl : List Nat} {G : List Cell} {gc : GOM} {ranks : List RankIn} {outs : List RankOut} {F : Nat → Nat → Int}
  {rs rs0 : List (Rk m K)} {D : Nat → Matrix (Fin m) (Fin m) K} {cpl : Int → Bool → (Fin m → K) → Fin m → K} {b b0 : Nat → Fin m → K}
  {E : Int → Nat × Nat} {mate : Nat → Nat → Option Nat}
  {lib : Int → List (List Nat) → Res (List Nat × List Nat)} {ord : List Nat → List Nat} {code iluCode : Int}
  {ts : List (List (List Nat) × LUStruct × Nat)} {fs : List (Fact m K)}

/-! ## Setting up and factorizing -/

/-- The setup returns on every rank, for every ordering and every fill level up to 5: the structure of the factorization is
well formed, has a row for every own cell, and a place for every pair of neighbouring own cells. -/
theorem setup_returns (hD : Distributed per cl nl G gc ranks) (hN : Numbered per cl nl G ranks outs F) (hE : Orient per cl G ranks outs F E)
    (hM : Mates per G F mate) (hG : Given cl ranks outs rs D cpl b) (hO : Options G mate lib ord code iluCode) :
    ∃ ts, setupAll lib ord code iluCode rs = .ok ts ∧ ts.length = ranks.length ∧ ∀ (r : Nat) (x : RankIn) (t : List (List Nat) × LUStruct × Nat),
      ranks[r]? = some x → ts[r]? = some t → WF t.2.1 ∧ t.2.1.n = x.nOwn ∧ ∀ i j i', Owns cl r (i : Nat) → Owns cl r (i' : Nat) → j < nSides G i → mate i j = some i' →
        InPattern t.2.1 (rename t.2.1.o2n (i - before cl r)) (rename t.2.1.o2n (i' - before cl r)) := by
  obtain ⟨ts, e1, ⟨l1, h1⟩, _⟩ := setup_spec hD hN hE hM hG hO.library hO.order hO.codes hO.fill hO.rcm
  refine ⟨ts, e1, l1, ?_⟩
  intro r x t hx ht
  obtain ⟨ha, hL⟩ := h1 r x t hx ht
  refine ⟨hL.wf, hL.n, ?_⟩
  intro i j i' hoi hoi' hj hmt
  have hH := hD.holds r x hx
  obtain ⟨hi, hl⟩ := own_index hH hoi
  have hil : ((i : Int) - before cl r).toNat = i - before cl r := by obtain ⟨_, h, _⟩ := hoi; omega
  have hii : before cl r + (i - before cl r) = i := by obtain ⟨_, h, _⟩ := hoi; omega
  rw [hil] at hl
  obtain ⟨p1, p2, p3, p4⟩ := mate_place hD hN hM hx hl (by rw [hii]; exact hj) (by rw [hii]; exact hmt)
  have hloc : loc x i' = i' - before cl r := by have := p4 hoi'; omega
  have hadj : loc x i' ∈ rowOf t.1 (i - before cl r) := by
    rw [rowOf, List.getD_eq_getElem?_getD, ha.2 _ hl, Option.getD_some, mem_ownNbrs, hii]
    exact ⟨p3.2 hoi', j, hj, _, by simp only [nbrs, hmt, Option.map_some]; rfl⟩
  obtain ⟨p, hp⟩ := List.getElem?_of_mem hadj
  obtain ⟨posRow, _, hpos⟩ := hL.pos _ hl
  obtain ⟨pos, _, hok⟩ := hpos p _ hp
  rw [hloc] at hok
  rcases hok with ⟨_, q, _, hq⟩ | ⟨_, q, _, hq⟩ | ⟨h, _⟩
  · exact Or.inr (Or.inl (List.mem_of_getElem? hq))
  · exact Or.inr (Or.inr (List.mem_of_getElem? hq))
  · exact Or.inl h.symm

/-- With orderings 3 and 4 a rank takes part in two reductions over all ranks exactly if it has cells: if one rank has none and
another has some, those that have wait for ever. -/
theorem ordering_collectives_mismatch (hD : Distributed per cl nl G gc ranks) (hN : Numbered per cl nl G ranks outs F) (hE : Orient per cl G ranks outs F E)
    (hM : Mates per G F mate) (hG : Given cl ranks outs rs D cpl b) (hO : Options G mate lib ord code iluCode) (hcode : code = 3 ∨ code = 4)
    {r r' : Nat} {x x' : RankIn} (hx : ranks[r]? = some x) (hx' : ranks[r']? = some x')
    (he : x.nOwn = 0) (hne : x'.nOwn ≠ 0) :
    ∃ ts t t', setupAll lib ord code iluCode rs = .ok ts ∧ ts[r]? = some t ∧ ts[r']? = some t' ∧ t.2.2 = 0 ∧ t'.2.2 = 2 := by
  obtain ⟨ts, e1, ⟨l1, _⟩, h1⟩ := setup_spec hD hN hE hM hG hO.library hO.order hO.codes hO.fill hO.rcm
  have hr : r < ts.length := by rw [l1]; exact (List.getElem?_eq_some_iff.1 hx).1
  have hr' : r' < ts.length := by rw [l1]; exact (List.getElem?_eq_some_iff.1 hx').1
  have ht := List.getElem?_eq_getElem hr
  have ht' := List.getElem?_eq_getElem hr'
  refine ⟨ts, _, _, e1, ht, ht', ?_, ?_⟩
  · rw [h1 r x _ hx ht, if_neg (fun h => h.1 he)]
  · rw [h1 r' x' _ hx' ht', if_pos ⟨hne, hcode⟩]

/-- Assembly and factorization stay inside the arrays on every rank: the program factorizes, or stops at a pivot it cannot
invert. -/
theorem prepare_defined (hD : Distributed per cl nl G gc ranks) (hN : Numbered per cl nl G ranks outs F) (hE : Orient per cl G ranks outs F E)
    (hM : Mates per G F mate) (hG : Given cl ranks outs rs D cpl b) (hO : Options G mate lib ord code iluCode) :
    ∃ ts, setupAll lib ord code iluCode rs = .ok ts ∧ factorAll ts rs ≠ .ub := by
  obtain ⟨ts, e1, h1, _⟩ := setup_spec hD hN hE hM hG hO.library hO.order hO.codes hO.fill hO.rcm
  exact ⟨ts, e1, (factor_spec hD hN hE hM hG h1).1⟩

theorem prepared_factorOk (hD : Distributed per cl nl G gc ranks) (hN : Numbered per cl nl G ranks outs F) (hE : Orient per cl G ranks outs F E)
    (hM : Mates per G F mate) (hG0 : Given cl ranks outs rs0 D cpl b0) (hO : Options G mate lib ord code iluCode)
    (hp : Prepared lib ord code iluCode rs0 fs) : FactorOk cl G F E mate D cpl iluCode ranks fs := by
  obtain ⟨ts, e1, h1, _⟩ := setup_spec hD hN hE hM hG0 hO.library hO.order hO.codes hO.fill hO.rcm
  obtain ⟨ts', e2, e3⟩ := hp
  rw [e1] at e2; cases Res.ok.inj e2
  exact (factor_spec hD hN hE hM hG0 h1).2 fs e3

/-! ## One call -/

theorem offLast_congr {σ : Nat → Nat → Bool} {i : Nat} {P : Nat → Prop} {X Y : Nat → Fin m → K}
    (h : ∀ j < nSides G i, ∀ i', mate i j = some i' → P i' → X i' = Y i') : offLast G F σ mate cpl i P X = offLast G F σ mate cpl i P Y := by
  classical
  rw [offLast, offLast]
  refine Finset.sum_congr rfl fun j hj => ?_
  cases hmt : mate i j with
  | none => rfl
  | some i' =>
      by_cases hP : P i'
      · simp only [h j (Finset.mem_range.1 hj) i' hmt hP]
      · simp only [hP, false_and, if_false]

theorem offIf_congr_mate {σ : Nat → Nat → Bool} {i : Nat} {P : Nat → Prop} {X Y : Nat → Fin m → K}
    (h : ∀ j < nSides G i, ∀ i', mate i j = some i' → X i' = Y i') : offIf G F σ mate cpl i P X = offIf G F σ mate cpl i P Y := by
  classical
  rw [offIf, offIf]
  refine Finset.sum_congr rfl fun j hj => ?_
  cases hmt : mate i j with
  | none => rfl
  | some i' => simp only [h j (Finset.mem_range.1 hj) i' hmt]

/-- without double faces every face counts -/
theorem offLast_single {σ : Nat → Nat → Bool} (hS : SingleFace G mate) {i : Nat} {P : Nat → Prop} {X : Nat → Fin m → K} :
    offLast G F σ mate cpl i P X = offIf G F σ mate cpl i P X := by
  classical
  rw [offLast, offIf]
  refine Finset.sum_congr rfl fun j hj => ?_
  cases hmt : mate i j with
  | none => rfl
  | some i' =>
      have h : ∀ j' < nSides G i, j < j' → mate i j' ≠ some i' := fun j' hj' hlt hmt' => by
        have := hS i j j' i' (Finset.mem_range.1 hj) hj' hmt hmt'
        omega
      by_cases hP : P i'
      · simp only [hP, true_and, if_true]
        exact if_pos h
      · simp only [hP, false_and, if_false]

theorem offIf_split {σ : Nat → Nat → Bool} {i : Nat} {P : Nat → Prop} {X : Nat → Fin m → K} :
    offIf G F σ mate cpl i P X + offIf G F σ mate cpl i (fun i' => ¬ P i') X = off G F σ mate cpl i X := by
  classical
  rw [offIf, offIf, off, ← Finset.sum_add_distrib]
  refine Finset.sum_congr rfl fun j _ => ?_
  cases hmt : mate i j with
  | none => simp
  | some i' =>
      by_cases hP : P i'
      · simp [hP]
      · simp [hP]

/-- own cells by number -/
theorem own_number (hD : Distributed per cl nl G gc ranks) {r i : Nat} (ho : Owns cl r i) : ∃ x, ranks[r]? = some x ∧ i - before cl r < x.nOwn ∧
    before cl r + (i - before cl r) = i := by
  have hx := List.getElem?_eq_getElem (show r < ranks.length by rw [hD.nranks]; exact ho.1)
  have hH := hD.holds r _ hx
  have h1 := (own_index hH ho).2
  obtain ⟨_, h2, _⟩ := ho
  refine ⟨_, hx, ?_, by omega⟩
  have : ((i : Int) - before cl r).toNat = i - before cl r := by omega
  omega

/-- **C78.** One call solves twice, with an exchange after each: with the complete factorization, every rank solves its own
rows exactly, with what the ghost cells held before.  The second component is the change in the second solve.  Of several
faces with the same neighbour the matrix has only the last. -/
theorem direct_passes (hD : Distributed per cl nl G gc ranks) (hN : Numbered per cl nl G ranks outs F) (hE : Orient per cl G ranks outs F E)
    (hM : Mates per G F mate) (hG0 : Given cl ranks outs rs0 D cpl b0) (hO : Options G mate lib ord code iluCode) (hlin : LinearCouplings cpl)
    (hp : Prepared lib ord code iluCode rs0 fs) (hG : Given cl ranks outs rs D cpl b) {X : Nat → Fin m → K} (hX : Has cl ranks rs X) (hc : iluCode < 0) :
    ∃ rs' X1 X', directPrecondition gc fs rs = .ok (rs', fun k => ∑ i ∈ Finset.range G.length, |X1 i k - X' i k|) ∧ Given cl ranks outs rs' D cpl b ∧ Has cl ranks rs' X' ∧
      ∀ r i, Owns cl r (i : Nat) →
        D i *ᵥ X1 i + offLast G F (firstSide E F) mate cpl i (fun i' => Owns cl r i') X1 + offIf G F (firstSide E F) mate cpl i (fun i' => ¬ Owns cl r i') X = b i ∧
        D i *ᵥ X' i + offLast G F (firstSide E F) mate cpl i (fun i' => Owns cl r i') X' + offIf G F (firstSide E F) mate cpl i (fun i' => ¬ Owns cl r i') X1 = b i := by
  have hf := prepared_factorOk hD hN hE hM hG0 hO hp
  obtain ⟨P, hP⟩ := solves_exist hD hN hM hlin hf
  obtain ⟨rs', X1, X', e, g, h, q⟩ := direct_spec hD hN hE hM hG hf hP hX
  refine ⟨rs', X1, X', e, g, h, ?_⟩
  intro r i ho
  obtain ⟨x, hx, hl, hi⟩ := own_number hD ho
  have key : ∀ Y : Nat → Fin m → K, (∑ o ∈ Finset.range x.nOwn, P r (i - before cl r) o • Y (before cl r + o)) =
      D i *ᵥ Y i + offLast G F (firstSide E F) mate cpl i (fun i' => Owns cl r i') Y := by
    intro Y
    have h1 := hP.row r x hx hc _ hl (fun o => Y (before cl r + o))
    simp only [hi] at h1
    rw [h1]
    congr 1
    refine offLast_congr fun j hj i' hmt hP' => ?_
    obtain ⟨_, _, _, p4⟩ := mate_place hD hN hM hx hl (by rw [hi]; exact hj) (by rw [hi]; exact hmt)
    exact congrArg Y (p4 hP').symm
  obtain ⟨q1, q2⟩ := q r x hx _ hl
  rw [key, hi] at q1 q2
  exact ⟨by rw [q1]; abel, by rw [q2]; abel⟩

variable [IsStrictOrderedRing K]

theorem change_zero {n : Nat} {X Y : Nat → Fin m → K} : (fun k => ∑ i ∈ Finset.range n, |X i k - Y i k|) = 0 ↔ ∀ i < n, X i = Y i := by
  constructor
  · intro hz i hi
    funext k
    have h3 := (Finset.sum_eq_zero_iff_of_nonneg (fun i _ => abs_nonneg (X i k - Y i k))).1 (congrFun hz k) i (Finset.mem_range.2 hi)
    exact sub_eq_zero.1 (abs_eq_zero.1 h3)
  · intro h
    funext k
    exact Finset.sum_eq_zero fun i hi => by rw [h i (Finset.mem_range.1 hi), sub_self, abs_zero]

/-- **C78.** Complete factorization, no double faces: if the call reports no change, the result solves the system of the whole
mesh; and a solution is left as it is, with no change reported. -/
theorem direct_solves (hD : Distributed per cl nl G gc ranks) (hN : Numbered per cl nl G ranks outs F) (hE : Orient per cl G ranks outs F E)
    (hM : Mates per G F mate) (hG0 : Given cl ranks outs rs0 D cpl b0) (hO : Options G mate lib ord code iluCode) (hlin : LinearCouplings cpl)
    (hp : Prepared lib ord code iluCode rs0 fs) (hG : Given cl ranks outs rs D cpl b) {X : Nat → Fin m → K} (hX : Has cl ranks rs X) (hc : iluCode < 0) (hS : SingleFace G mate) :
    ∃ rs' res X', directPrecondition gc fs rs = .ok (rs', res) ∧ Given cl ranks outs rs' D cpl b ∧ Has cl ranks rs' X' ∧
      (res = 0 → ∀ i < G.length, D i *ᵥ X' i + off G F (firstSide E F) mate cpl i X' = b i) ∧
      ((∀ i < G.length, D i *ᵥ X i + off G F (firstSide E F) mate cpl i X = b i) → res = 0 ∧ ∀ i < G.length, X' i = X i) := by
  have hf := prepared_factorOk hD hN hE hM hG0 hO hp
  obtain ⟨P, hP⟩ := solves_exist hD hN hM hlin hf
  obtain ⟨rs', X1, X', e, g, h, q⟩ := direct_spec hD hN hE hM hG hf hP hX
  have key : ∀ {r i : Nat} {x : RankIn}, ranks[r]? = some x → i - before cl r < x.nOwn → before cl r + (i - before cl r) = i → ∀ Y : Nat → Fin m → K,
      (∑ o ∈ Finset.range x.nOwn, P r (i - before cl r) o • Y (before cl r + o)) = D i *ᵥ Y i + offIf G F (firstSide E F) mate cpl i (fun i' => Owns cl r i') Y := by
    intro r i x hx hl hi Y
    have h1 := hP.row r x hx hc _ hl (fun o => Y (before cl r + o))
    simp only [hi] at h1
    rw [h1, ← offLast_single hS]
    congr 1
    refine offLast_congr fun j hj i' hmt hP' => ?_
    obtain ⟨_, _, _, p4⟩ := mate_place hD hN hM hx hl (by rw [hi]; exact hj) (by rw [hi]; exact hmt)
    exact congrArg Y (p4 hP').symm
  refine ⟨rs', _, X', e, g, h, ?_, ?_⟩
  · intro hz i hi
    have heq := change_zero.1 hz
    obtain ⟨r, ho⟩ := owner hD hi
    obtain ⟨x, hx, hl, hii⟩ := own_number hD ho
    have q2 := (q r x hx _ hl).2
    rw [key hx hl hii, hii] at q2
    rw [← offIf_split (P := fun i' => Owns cl r i'), ← add_assoc, q2,
      offIf_congr_mate (X := X') (Y := X1) fun j hj i' hmt => (heq i' (mate_lt hM hj hmt)).symm]
    abel
  · intro hA
    have step : ∀ Y Y' : Nat → Fin m → K, (∀ i < G.length, D i *ᵥ Y i + off G F (firstSide E F) mate cpl i Y = b i) →
        (∀ (r : Nat) (x : RankIn), ranks[r]? = some x → ∀ l < x.nOwn, (∑ o ∈ Finset.range x.nOwn, P r l o • Y' (before cl r + o)) = b (before cl r + l) -
          offIf G F (firstSide E F) mate cpl (before cl r + l) (fun i' => ¬ Owns cl r i') Y) → ∀ i < G.length, Y' i = Y i := by
      intro Y Y' hY hY' i hi
      obtain ⟨r, ho⟩ := owner hD hi
      obtain ⟨x, hx, hl, hii⟩ := own_number hD ho
      have hH := hD.holds r x hx
      have := hP.inj r x hx (fun o => Y' (before cl r + o)) (fun o => Y (before cl r + o)) (by
        intro l hl
        have hol := (is_own_add hH hl).2
        have hsub : before cl r + l - before cl r = l := by omega
        have k := key (i := before cl r + l) hx (by rw [hsub]; exact hl) (by rw [hsub]) Y
        rw [hsub] at k
        rw [hY' r x hx l hl, k, ← hY _ (own_lt hD hol), ← offIf_split (P := fun i' => Owns cl r i')]
        abel) _ hl
      simp only [hii] at this
      exact this
    have k1 := step X X1 hA fun r x hx l hl => (q r x hx l hl).1
    have hA1 : ∀ i < G.length, D i *ᵥ X1 i + off G F (firstSide E F) mate cpl i X1 = b i := by
      intro i hi
      rw [k1 i hi, ← hA i hi]
      congr 1
      exact off_congr fun j hj i' hmt => k1 i' (mate_lt hM hj hmt)
    have k2 := step X1 X' hA1 fun r x hx l hl => (q r x hx l hl).2
    exact ⟨change_zero.2 fun i hi => (k2 i hi).symm, fun i hi => by rw [k2 i hi, k1 i hi]⟩

/-- nothing is owned by other ranks -/
theorem offIf_alone {σ : Nat → Nat → Bool} {r i : Nat} {X : Nat → Fin m → K} (hall : ∀ i < G.length, Owns cl r (i : Nat)) (hM : Mates per G F mate) :
    offIf G F σ mate cpl i (fun i' => ¬ Owns cl r i') X = 0 := by
  classical
  rw [offIf]
  refine Finset.sum_eq_zero fun j hj => ?_
  cases hmt : mate i j with
  | none => rfl
  | some i' => exact if_neg fun h => h (hall i' (mate_lt hM (Finset.mem_range.1 hj) hmt))

/-- **C78.** If one rank owns every cell, one call with the complete factorization solves the system, whatever the start. -/
theorem direct_one_rank (hD : Distributed per cl nl G gc ranks) (hN : Numbered per cl nl G ranks outs F) (hE : Orient per cl G ranks outs F E)
    (hM : Mates per G F mate) (hG0 : Given cl ranks outs rs0 D cpl b0) (hO : Options G mate lib ord code iluCode) (hlin : LinearCouplings cpl)
    (hp : Prepared lib ord code iluCode rs0 fs) (hG : Given cl ranks outs rs D cpl b) {X : Nat → Fin m → K} (hX : Has cl ranks rs X) (hc : iluCode < 0) (hS : SingleFace G mate) {r : Nat} (hall : ∀ i < G.length, Owns cl r (i : Nat)) :
    ∃ rs' X', directPrecondition gc fs rs = .ok (rs', 0) ∧ Given cl ranks outs rs' D cpl b ∧ Has cl ranks rs' X' ∧
      ∀ i < G.length, D i *ᵥ X' i + off G F (firstSide E F) mate cpl i X' = b i := by
  have hf := prepared_factorOk hD hN hE hM hG0 hO hp
  obtain ⟨P, hP⟩ := solves_exist hD hN hM hlin hf
  obtain ⟨rs', X1, X', e, g, h, q⟩ := direct_spec hD hN hE hM hG hf hP hX
  obtain ⟨rs2, X12, X2', e', _, h', q'⟩ := direct_passes hD hN hE hM hG0 hO hlin hp hG hX hc
  have hz : (fun k => ∑ i ∈ Finset.range G.length, |X1 i k - X' i k|) = 0 := by
    refine change_zero.2 fun i hi => ?_
    obtain ⟨x, hx, hl, hii⟩ := own_number hD (hall i hi)
    have := hP.inj r x hx (fun o => X1 (before cl r + o)) (fun o => X' (before cl r + o)) (fun l hl => by
      rw [(q r x hx l hl).1, (q r x hx l hl).2, offIf_alone hall hM, offIf_alone hall hM]) _ hl
    simp only [hii] at this
    exact this
  rw [e] at e'
  have hr := congrArg Prod.fst (Res.ok.inj e')
  simp only at hr
  subst hr
  refine ⟨rs', X2', ?_, g, h', ?_⟩
  · rw [e, hz]
  · intro i hi
    have := (q' r i (hall i hi)).2
    rw [offLast_single hS, offIf_alone hall hM, add_zero] at this
    rw [← offIf_split (P := fun i' => Owns cl r i'), offIf_alone hall hM, add_zero]
    exact this

/-! ## Incomplete factorization -/

/-- **C78.** With any fill level every rank solves, both times, with a regular matrix that has the blocks of the system on the
diagonal and between neighbouring own cells; blocks between other cells need not be zero. -/
theorem incomplete_passes (hD : Distributed per cl nl G gc ranks) (hN : Numbered per cl nl G ranks outs F) (hE : Orient per cl G ranks outs F E)
    (hM : Mates per G F mate) (hG0 : Given cl ranks outs rs0 D cpl b0) (hO : Options G mate lib ord code iluCode) (hlin : LinearCouplings cpl)
    (hp : Prepared lib ord code iluCode rs0 fs) (hG : Given cl ranks outs rs D cpl b) {X : Nat → Fin m → K} (hX : Has cl ranks rs X) :
    ∃ rs' X1 X', ∃ P : Nat → Nat → Nat → Matrix (Fin m) (Fin m) K,
      directPrecondition gc fs rs = .ok (rs', fun k => ∑ i ∈ Finset.range G.length, |X1 i k - X' i k|) ∧ Given cl ranks outs rs' D cpl b ∧ Has cl ranks rs' X' ∧
      ∀ (r : Nat) (x : RankIn), ranks[r]? = some x →
        (∀ l < x.nOwn, ∀ o < x.nOwn, (l = o ∨ ∃ j < nSides G (before cl r + l), mate (before cl r + l) j = some (before cl r + o)) →
          ∀ v, P r l o *ᵥ v = (if l = o then D (before cl r + l) *ᵥ v else 0) +
            offLast G F (firstSide E F) mate cpl (before cl r + l) (fun i' => i' = before cl r + o) fun _ => v) ∧
        (∀ y y' : Nat → Fin m → K, (∀ l < x.nOwn, (∑ o ∈ Finset.range x.nOwn, P r l o *ᵥ y o) = ∑ o ∈ Finset.range x.nOwn, P r l o *ᵥ y' o) → ∀ l < x.nOwn, y l = y' l) ∧
        ∀ l < x.nOwn,
          (∑ o ∈ Finset.range x.nOwn, P r l o *ᵥ X1 (before cl r + o)) + offIf G F (firstSide E F) mate cpl (before cl r + l) (fun i' => ¬ Owns cl r i') X = b (before cl r + l) ∧
          (∑ o ∈ Finset.range x.nOwn, P r l o *ᵥ X' (before cl r + o)) + offIf G F (firstSide E F) mate cpl (before cl r + l) (fun i' => ¬ Owns cl r i') X1 = b (before cl r + l) := by
  have hf := prepared_factorOk hD hN hE hM hG0 hO hp
  obtain ⟨P, hP⟩ := solves_exist hD hN hM hlin hf
  obtain ⟨rs', X1, X', e, g, h, q⟩ := direct_spec hD hN hE hM hG hf hP hX
  refine ⟨rs', X1, X', P, e, g, h, fun r x hx => ⟨hP.near r x hx, hP.inj r x hx, fun l hl => ?_⟩⟩
  obtain ⟨q1, q2⟩ := q r x hx l hl
  exact ⟨eq_sub_iff_add_eq.1 q1, eq_sub_iff_add_eq.1 q2⟩

/-- **C78, limit.** If one rank owns every cell, the change the call reports is zero with every fill level, solved or not. -/
theorem one_rank_reports_zero (hD : Distributed per cl nl G gc ranks) (hN : Numbered per cl nl G ranks outs F) (hE : Orient per cl G ranks outs F E)
    (hM : Mates per G F mate) (hG0 : Given cl ranks outs rs0 D cpl b0) (hO : Options G mate lib ord code iluCode) (hlin : LinearCouplings cpl)
    (hp : Prepared lib ord code iluCode rs0 fs) (hG : Given cl ranks outs rs D cpl b) {X : Nat → Fin m → K} (hX : Has cl ranks rs X) {r : Nat} (hall : ∀ i < G.length, Owns cl r (i : Nat)) :
    ∃ rs', directPrecondition gc fs rs = .ok (rs', 0) := by
  have hf := prepared_factorOk hD hN hE hM hG0 hO hp
  obtain ⟨P, hP⟩ := solves_exist hD hN hM hlin hf
  obtain ⟨rs', X1, X', e, g, h, q⟩ := direct_spec hD hN hE hM hG hf hP hX
  have hz : (fun k => ∑ i ∈ Finset.range G.length, |X1 i k - X' i k|) = 0 := by
    refine change_zero.2 fun i hi => ?_
    obtain ⟨x, hx, hl, hii⟩ := own_number hD (hall i hi)
    have := hP.inj r x hx (fun o => X1 (before cl r + o)) (fun o => X' (before cl r + o)) (fun l hl => by
      rw [(q r x hx l hl).1, (q r x hx l hl).2, offIf_alone hall hM, offIf_alone hall hM]) _ hl
    simp only [hii] at this
    exact this
  exact ⟨rs', by rw [e, hz]⟩

/-- **C78.** A system whose rows are strictly dominated by their diagonal entries is factorized on every rank, with every ordering
and every fill level: nothing stops the program. -/
theorem dominant_prepared (hD : Distributed per cl nl G gc ranks) (hN : Numbered per cl nl G ranks outs F) (hE : Orient per cl G ranks outs F E)
    (hM : Mates per G F mate) (hG : Given cl ranks outs rs D cpl b) (hO : Options G mate lib ord code iluCode)
    (hdom : DominantSystem G F (firstSide E F) mate D cpl) : ∃ fs, Prepared lib ord code iluCode rs fs := by
  obtain ⟨ts, e1, h1, _⟩ := setup_spec hD hN hE hM hG hO.library hO.order hO.codes hO.fill hO.rcm
  obtain ⟨fs, e2⟩ := factor_returns hD hN hE hM hG h1 hdom
  exact ⟨fs, ts, e1, e2⟩

/-! ## Periodic faces -/

/-- The program rotates the columns of the matrix of a coupling through a periodic face (`src/Euler/EulerEvaluator.hxx:251-266`);
this is the matrix of the coupling of the rotated increment, which the sweeps use. -/
theorem asMatrix_rotated {c : (Fin m → K) → Fin m → K} (hadd : ∀ v w, c (v + w) = c v + c w) (hsmul : ∀ (a : K) v, c (a • v) = a • c v) (R : Matrix (Fin m) (Fin m) K) :
    asMatrix (fun v => c (R *ᵥ v)) = asMatrix c * R := by
  ext a k
  rw [Matrix.mul_apply]
  show c (R *ᵥ Pi.single k 1) a = ∑ j, asMatrix c a j * R j k
  rw [← asMatrix_smul c ⟨hadd, hsmul⟩ (R *ᵥ Pi.single k 1)]
  show (asMatrix c *ᵥ (R *ᵥ Pi.single k 1)) a = _
  rw [mulVec_single_one]
  rfl

/-! ## Cells with two common faces -/

namespace Double

/-- two cells with two faces between them: a periodic direction two cells long -/
def sys : Sys 1 ℚ := ⟨2, [⟨⟨.line2, [0, 1], []⟩, 0, 1⟩, ⟨⟨.line2, [2, 3], []⟩, 1, 0⟩], [[0, 1], [0, 1]], [], [fun _ v => v, fun _ v => v]⟩
def J : JDiag 1 ℚ := ⟨false, [], [![5], ![5]], [], [], false⟩
/-- the structure the setup finds -/
def L : LUStruct := ⟨2, [], [], [[], [0]], [[1], []], [[], [0]], [[1], []], [[], [0]], [[0], []], [[1, 1], [1, 1]]⟩

end Double

/-- **C78, limit.** The block of two cells is assigned, not added to: of two common faces only the last is in the matrix, while the
products have both. -/
theorem double_face : cell2cellFace Double.sys = .ok [[1, 1], [0, 0]] ∧
    (∃ B, assemble Double.sys Double.J [[1, 1], [0, 0]] Double.L = .ok B ∧ B.diag 0 = diagonal ![5] ∧ B.upper 0 0 = 1) ∧
    matVec Double.sys Double.J [![0], ![1]] [![0], ![0]] = .ok [![2], ![5]] := by
  refine ⟨?_, ⟨_, rfl, ?_, ?_⟩, ?_⟩
  · decide
  · ext a k
    match a, k with
    | 0, 0 => rfl
  · ext a k
    match a, k with
    | 0, 0 => rfl
  · simp [matVec, JDiag.left, Double.J, Double.sys, rowLoop, at64, idx, Res.ok_bind, forRanks, unInit, vec1, List.range_succ]
    norm_num

end DNDSR.Sweep

namespace DNDSR.Faces.TwoQuads

open DNDSR.IMap DNDSR.MeshAdj DNDSR.Elem DNDSR.Flux DNDSR.Sweep

/-- the same mesh on one rank -/
theorem exists_one (per : Bool) : ∃ gc ranks, Distributed per [2] [6] mesh gc ranks ∧ ranks.length = 1 := by
  obtain ⟨gc, hgc⟩ := built_exists [2]
  obtain ⟨gn, hgn⟩ := built_exists [6]
  obtain ⟨cm, _, hcl, hcm⟩ := pulls hgc [[]] rfl (by decide) (by decide) (by decide)
  obtain ⟨nm, _, hnl, hnm⟩ := pulls hgn [[]] rfl (by decide) (by decide) (by decide)
  match cm, hcl, nm, hnl with
  | [c0], _, [n0], _ =>
  obtain ⟨a1, a2, a3⟩ := hcm 0 c0 rfl
  obtain ⟨d1, d2, d3⟩ := hnm 0 n0 rfl
  have a2' : c0.mainSize = 2 := (Option.some.inj a2).symm
  have a3' : c0.ghostIndex = [] := (Option.some.inj a3).symm
  have hown : ∀ i : Nat, i < 2 → Owns [2] 0 i := fun i hi => owns_dec.2 ⟨by decide, by simp [before], by simp [before]; omega⟩
  refine ⟨gc, [⟨mesh, c0, n0⟩], ⟨hgc, rfl, rfl, ?_, ?_, ?_, ?_, ?_⟩, rfl⟩
  · intro C hC
    simp only [mesh, List.mem_cons, List.not_mem_nil, or_false] at hC
    rcases hC with rfl | rfl
    · exact ⟨⟨by decide, rfl, fun _ => rfl, by decide⟩, by decide⟩
    · exact ⟨⟨by decide, rfl, fun _ => rfl, by decide⟩, by decide⟩
  · intro i j i' j' a b ha hb ht hp
    have key : ∀ x ∈ slots per, ∀ y ∈ slots per, Alike x.2.2 y.2.2 → x.2.2.nodes.Perm y.2.2.nodes := by cases per <;> decide +kernel
    exact key _ (mem_slots ha) _ (mem_slots hb) ⟨ht, hp⟩
  · intro i1 j1 i2 j2 i3 j3 a b c ha hb hc h1 h2
    have key : ∀ x ∈ slots per, ∀ y ∈ slots per, ∀ z ∈ slots per, Alike x.2.2 y.2.2 → Alike x.2.2 z.2.2 →
        (x.1, x.2.1) = (y.1, y.2.1) ∨ (x.1, x.2.1) = (z.1, z.2.1) ∨ (y.1, y.2.1) = (z.1, z.2.1) := by cases per <;> decide +kernel
    exact key _ (mem_slots ha) _ (mem_slots hb) _ (mem_slots hc) ⟨h1.1, h1.2.1⟩ ⟨h2.1, h2.2.1⟩
  · intro r x hx
    match r, hx with
    | 0, hx =>
      cases hx
      refine ⟨a1, d1, ?_, ?_, ?_⟩
      · intro q hq
        rw [a3'] at hq
        cases hq
      · show mesh.length = c0.mainSize + c0.ghostIndex.length
        rw [a2', a3']; rfl
      · intro l i c C hc hC hn
        have hi : i < 2 := (List.getElem?_eq_some_iff.1 hC).1
        have hl : l = i := by
          rcases hn with ⟨_, e⟩ | ⟨h, _⟩ | ⟨_, _, e⟩
          · simp [before] at e; omega
          · exact absurd (hown i hi) h
          · omega
        subst hl
        have hc : mesh[l]? = some c := hc
        have hC' := hC
        rw [hC] at hc; cases hc
        refine ⟨rfl, rfl, rfl, ?_⟩
        intro p q v hq hv
        rw [hq] at hv; cases hv
        have hmem : _ ∈ mesh := List.mem_of_getElem? hC'
        have hall : ∀ C ∈ mesh, ∀ q ∈ C.nodes, 0 ≤ q ∧ q < 6 := by decide
        obtain ⟨h1, h2⟩ := hall _ hmem q (List.mem_of_getElem? hq)
        exact ⟨h1, name_own' (owns_dec.2 ⟨by decide, by simp [before]; omega, by simp [before]; omega⟩) (by simp [before])⟩
    | _ + 1, hx => simp at hx
  · intro r x i j i' j' a b hx ha hb _ ho ho'
    have hi' : i' < 2 := by obtain ⟨_, h, _⟩ := hb; exact (List.getElem?_eq_some_iff.1 h).1
    match r, hx with
    | 0, _ => exact absurd (hown i' hi') ho'
    | _ + 1, hx => simp at hx

/-- its two cells have one face in common -/
theorem single {per : Bool} {cl nl : List Nat} {ranks : List RankIn} {outs : List RankOut} {F : Nat → Nat → Int} {mate : Nat → Nat → Option Nat}
    (hN : Numbered per cl nl mesh ranks outs F) (hM : Mates per mesh F mate) : SingleFace mesh mate := by
  intro i j j' i' hj hj' h h'
  obtain ⟨a, ha⟩ := isSlot_of (per := per) hj
  obtain ⟨a', ha'⟩ := isSlot_of (per := per) hj'
  obtain ⟨k, b, hb, e, hne⟩ := (hM i j a ha i').1 h
  obtain ⟨k', b', hb', e', hne'⟩ := (hM i j' a' ha' i').1 h'
  have s1 := (hN.iff _ _ _ _ _ _ hb ha).1 e
  have s2 := (hN.iff _ _ _ _ _ _ hb' ha').1 e'
  have key : ∀ x ∈ slots per, ∀ y ∈ slots per, Alike y.2.2 x.2.2 → (y.1, y.2.1) ≠ (x.1, x.2.1) → (x.1, x.2.1) = (0, 1) ∨ (x.1, x.2.1) = (1, 3) := by
    cases per <;> decide +kernel
  have k1 := key _ (mem_slots ha) _ (mem_slots hb) ⟨s1.1, s1.2.1⟩ hne
  have k2 := key _ (mem_slots ha') _ (mem_slots hb') ⟨s2.1, s2.2.1⟩ hne'
  simp only [Prod.mk.injEq] at k1 k2
  omega

end DNDSR.Faces.TwoQuads

namespace DNDSR.Sweep

open DNDSR.Elem DNDSR.IMap DNDSR.MeshAdj
open DNDSR.Faces hiding rename
open DNDSR.Flux (nSides firstSide isSlot_of sum_ranks)
open Matrix

/-! ## The hypotheses can be met -/

/-- a library that keeps the order -/
def keepOrder : Int → List (List Nat) → Res (List Nat × List Nat) := fun _ _ => .ok ([], [])

theorem keepOrder_good : GoodLibrary keepOrder := fun _ _ _ => ⟨_, rfl, Or.inl ⟨rfl, rfl⟩⟩

/-- blocks `[[9, 1], [0, 9]]` and couplings `-v` -/
theorem demo_dominant {F : Nat → Nat → Int} {σ : Nat → Nat → Bool} {mate : Nat → Nat → Option Nat} :
    DominantSystem TwoQuads.mesh F σ mate (fun _ => (!![9, 1; 0, 9] : Matrix (Fin 2) (Fin 2) ℚ)) (fun _ _ v => -v) := by
  intro i hi p
  have hi : i < 2 := hi
  have hsides : ∀ i < 2, nSides TwoQuads.mesh i = 4 := by decide
  have hc : ∀ q : Fin 2, ∑ k : Fin 2, |(-(Pi.single k 1 : Fin 2 → ℚ)) q| = 1
    | 0 => by simp [Fin.sum_univ_two]
    | 1 => by simp [Fin.sum_univ_two]
  have e0 : (Finset.univ : Finset (Fin 2)).erase 0 = {1} := by decide
  have e1 : (Finset.univ : Finset (Fin 2)).erase 1 = {0} := by decide
  have h2 : ∀ q : Fin 2, ∑ k ∈ Finset.univ.erase q, |(!![9, 1; 0, 9] : Matrix (Fin 2) (Fin 2) ℚ) q k| ≤ 1
    | 0 => by rw [e0]; simp
    | 1 => by rw [e1]; simp
  have h3 : ∀ q : Fin 2, |(!![9, 1; 0, 9] : Matrix (Fin 2) (Fin 2) ℚ) q q| = 9
    | 0 => by simp
    | 1 => by simp
  rw [h3 p, hsides i hi]
  refine lt_of_le_of_lt (add_le_add (h2 p) (Finset.sum_le_card_nsmul _ _ 1 fun j _ => ?_)) (by rw [Finset.card_range]; norm_num)
  cases mate i j with
  | none => exact zero_le_one
  | some _ => exact (hc p).le

/-- two quadrilaterals on two ranks: all theorems above apply, for every ordering, fill level, right-hand side and start -/
example (per : Bool) (srt : Sorter) (hs : Sorts srt) (b X : Nat → Fin 2 → ℚ) (code iluCode : Int) (hcode : -1 ≤ code ∧ code ≤ 4) (hilu : iluCode ≤ 5) :
    ∃ gc ranks outs F E mate rs fs, interpolate per srt gc ranks = .ok outs ∧ Numbered per [1, 1] [4, 2] TwoQuads.mesh ranks outs F ∧
      Given [1, 1] ranks outs rs (fun _ => !![9, 1; 0, 9]) (fun _ _ v => -v) b ∧ Has [1, 1] ranks rs X ∧ Prepared keepOrder id code iluCode rs fs ∧
      (iluCode < 0 → ∃ rs' res X', directPrecondition gc fs rs = .ok (rs', res) ∧ Has [1, 1] ranks rs' X' ∧
        (res = 0 → ∀ i < 2, !![9, 1; 0, 9] *ᵥ X' i + off TwoQuads.mesh F (firstSide E F) mate (fun _ _ v => -v) i X' = b i)) ∧
      ∃ rs' X' res, directPrecondition gc fs rs = .ok (rs', res) ∧ Has [1, 1] ranks rs' X' := by
  obtain ⟨gc, ranks, hD, _⟩ := TwoQuads.exists_ranks per
  obtain ⟨outs, _, hI, _⟩ := faces_global per srt hs _ _ _ _ _ hD
  obtain ⟨F, E, mate, hN, hE, hM⟩ := system_exists hs hD hI
  obtain ⟨rs, hG, hX⟩ := given_exists hD hN (fun _ => !![9, 1; 0, 9]) (fun _ _ v => -v) b X
  have hS := TwoQuads.single hN hM
  have hO : Options TwoQuads.mesh mate keepOrder id code iluCode := ⟨keepOrder_good, fun _ => .refl _, hcode, hilu, fun _ => ⟨by decide, hS⟩⟩
  have hlin : LinearCouplings (fun (_ : Int) (_ : Bool) (v : Fin 2 → ℚ) => -v) := fun _ _ => ⟨fun v w => neg_add v w, fun a v => (smul_neg a v).symm⟩
  obtain ⟨fs, hp⟩ := dominant_prepared hD hN hE hM hG hO demo_dominant
  refine ⟨gc, ranks, outs, F, E, mate, rs, fs, hI, hN, hG, hX, hp, fun hc => ?_, ?_⟩
  · obtain ⟨rs', res, X', h1, _, h2, h3, _⟩ := direct_solves hD hN hE hM hG hO hlin hp hG hX hc hS
    exact ⟨rs', res, X', h1, h2, h3⟩
  · obtain ⟨rs', X1, X', P, h1, _, h2, _⟩ := incomplete_passes hD hN hE hM hG hO hlin hp hG hX
    exact ⟨rs', X', _, h1, h2⟩

/-- on one rank the same system is solved at once -/
example (per : Bool) (srt : Sorter) (hs : Sorts srt) (b X : Nat → Fin 2 → ℚ) : ∃ gc ranks outs F E mate rs fs, interpolate per srt gc ranks = .ok outs ∧
    Given [2] ranks outs rs (fun _ => !![9, 1; 0, 9]) (fun _ _ v => -v) b ∧ Has [2] ranks rs X ∧ Prepared keepOrder id 4 (-1) rs fs ∧
    ∃ rs' X', directPrecondition gc fs rs = .ok (rs', 0) ∧ Has [2] ranks rs' X' ∧
      ∀ i < 2, !![9, 1; 0, 9] *ᵥ X' i + off TwoQuads.mesh F (firstSide E F) mate (fun _ _ v => -v) i X' = b i := by
  obtain ⟨gc, ranks, hD, _⟩ := TwoQuads.exists_one per
  obtain ⟨outs, _, hI, _⟩ := faces_global per srt hs _ _ _ _ _ hD
  obtain ⟨F, E, mate, hN, hE, hM⟩ := system_exists hs hD hI
  obtain ⟨rs, hG, hX⟩ := given_exists hD hN (fun _ => !![9, 1; 0, 9]) (fun _ _ v => -v) b X
  have hS := TwoQuads.single hN hM
  have hO : Options TwoQuads.mesh mate keepOrder id 4 (-1) := ⟨keepOrder_good, fun _ => .refl _, by decide, by decide, fun _ => ⟨by decide, hS⟩⟩
  have hlin : LinearCouplings (fun (_ : Int) (_ : Bool) (v : Fin 2 → ℚ) => -v) := fun _ _ => ⟨fun v w => neg_add v w, fun a v => (smul_neg a v).symm⟩
  obtain ⟨fs, hp⟩ := dominant_prepared hD hN hE hM hG hO demo_dominant
  have hall : ∀ i < TwoQuads.mesh.length, Owns [2] 0 (i : Nat) := fun i hi =>
    TwoQuads.owns_dec.2 ⟨by decide, by simp [before], by have : i < 2 := hi; simp [before]; omega⟩
  obtain ⟨rs', X', h1, _, h2, h3⟩ := direct_one_rank hD hN hE hM hG hO hlin hp hG hX (by decide) hS hall
  exact ⟨gc, ranks, outs, F, E, mate, rs, fs, hI, hG, hX, hp, rs', X', h1, h2, h3⟩

end DNDSR.Sweep
