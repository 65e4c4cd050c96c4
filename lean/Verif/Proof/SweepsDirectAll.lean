import Verif.Proof.SweepsDirectRank
import Verif.Proof.DirectDominant
import Verif.Props.Sweeps

/-! Helper lemmas for `Verif.Props.SweepsDirect`: all ranks. -/

namespace DNDSR.Sweep

open DNDSR.Elem DNDSR.IMap DNDSR.MeshAdj
open DNDSR.Faces hiding rename
open DNDSR.Flux (nSides firstSide isSlot_of sum_ranks)
open DNDSR.Direct (LUStruct Blocks WF rename rowOf oldBlock Closed decompose decompose_defined invertDiag solve SymAdj IsReorder InPattern isReorder_re)
open Matrix
open scoped Matrix.Module

variable {m : Nat} {K : Type} [Field K] [LinearOrder K]
variable {per : Bool} {cl nl : List Nat} {G : List Cell} {gc : GOM} {ranks : List RankIn} {outs : List RankOut} {F : Nat → Nat → Int}
  {rs rs0 : List (Rk m K)} {D : Nat → Matrix (Fin m) (Fin m) K} {cpl : Int → Bool → (Fin m → K) → Fin m → K} {b b0 : Nat → Fin m → K}
  {E : Int → Nat × Nat} {mate : Nat → Nat → Option Nat}
  {lib : Int → List (List Nat) → Res (List Nat × List Nat)} {ord : List Nat → List Nat} {code iluCode : Int}
  {ts : List (List (List Nat) × LUStruct × Nat)} {fs : List (Fact m K)}

/-! ## Setting up -/

/-- what the setup of a rank is good for -/
def SetupOk (cl : List Nat) (G : List Cell) (F : Nat → Nat → Int) (E : Int → Nat × Nat) (mate : Nat → Nat → Option Nat) (cpl : Int → Bool → (Fin m → K) → Fin m → K)
    (iluCode : Int) (ranks : List RankIn) (ts : List (List (List Nat) × LUStruct × Nat)) : Prop :=
  ts.length = ranks.length ∧ ∀ (r : Nat) (x : RankIn) (t : List (List Nat) × LUStruct × Nat), ranks[r]? = some x → ts[r]? = some t →
    AdjOk cl G F E mate cpl r x t.1 ∧ LOk x t.1 iluCode t.2.1

theorem setup_spec (hD : Distributed per cl nl G gc ranks) (hN : Numbered per cl nl G ranks outs F) (hE : Orient per cl G ranks outs F E)
    (hM : Mates per G F mate) (hG : Given cl ranks outs rs D cpl b) (hlib : GoodLibrary lib) (hord : ∀ l, (ord l).Perm l) (hcode : -1 ≤ code ∧ code ≤ 4)
    (hilu : iluCode ≤ 5) (h4 : code = 4 → G.length ≤ 2 ^ 31 ∧ SingleFace G mate) :
    ∃ ts, setupAll lib ord code iluCode rs = .ok ts ∧ SetupOk cl G F E mate cpl iluCode ranks ts ∧
      ∀ (r : Nat) (x : RankIn) (t : List (List Nat) × LUStruct × Nat), ranks[r]? = some x → ts[r]? = some t →
        t.2.2 = if x.nOwn ≠ 0 ∧ (code = 3 ∨ code = 4) then 2 else 0 := by
  obtain ⟨ts, e1, l1, h1⟩ := N2C.forRanks_all (fun _ (s : Rk m K) => do
    let adj ← cell2cellFace s.sys
    let t ← fillOrdering lib code adj
    let L ← Direct.symbolic ord adj t.1 t.2.1 s.sys.n iluCode
    .ok (adj, L, t.2.2)) (fun r s t => ∀ x, ranks[r]? = some x → (AdjOk cl G F E mate cpl r x t.1 ∧ LOk x t.1 iluCode t.2.1) ∧
      t.2.2 = if x.nOwn ≠ 0 ∧ (code = 3 ∨ code = 4) then 2 else 0) rs (by
    intro r s hs
    have hr : r < ranks.length := by rw [← hG.size]; exact (List.getElem?_eq_some_iff.1 hs).1
    have hx := List.getElem?_eq_getElem hr
    have hH := hD.holds r _ hx
    obtain ⟨hn, _⟩ := hG.own r _ s hx hs
    obtain ⟨adj, a1, a2⟩ := adj_rank hD hN hE hM hG hx hs
    have hal := a2.1.1
    obtain ⟨t, t1, t2, t3⟩ := fillOrdering_spec hlib hcode (adj := adj) (by rw [hal]; exact a2.1) (by
      intro hc
      obtain ⟨h5, h6⟩ := h4 hc
      refine ⟨?_, adj_nodup hD hN hM h6 hx a2⟩
      by_cases h0 : adj.length = 0
      · omega
      · have hl : ranks[r].nOwn - 1 < ranks[r].nOwn := by omega
        have := own_lt hD (is_own_add hH hl).2
        omega)
    rw [hal] at t2 t3
    obtain ⟨L, L1, L2⟩ := structure_rank ord hord a2.1 t2 hilu
    simp only [a1, Res.ok_bind, t1, hn, L1]
    refine ⟨_, rfl, ?_⟩
    intro x hx'
    rw [hx] at hx'; cases hx'
    exact ⟨⟨a2, L2⟩, t3⟩)
  have hr : ∀ {r : Nat} {t : List (List Nat) × LUStruct × Nat}, ts[r]? = some t → ∃ s, rs[r]? = some s := fun {r t} h =>
    ⟨_, List.getElem?_eq_getElem (by rw [← l1]; exact (List.getElem?_eq_some_iff.1 h).1)⟩
  refine ⟨ts, e1, ⟨by rw [l1, hG.size], ?_⟩, ?_⟩
  · intro r x t hx ht
    obtain ⟨s, hs⟩ := hr ht
    exact (h1 r s t hs ht x hx).1
  · intro r x t hx ht
    obtain ⟨s, hs⟩ := hr ht
    exact (h1 r s t hs ht x hx).2

/-! ## Factorizing -/

/-- what the factorization of a rank is good for -/
def FactorOk (cl : List Nat) (G : List Cell) (F : Nat → Nat → Int) (E : Int → Nat × Nat) (mate : Nat → Nat → Option Nat) (D : Nat → Matrix (Fin m) (Fin m) K)
    (cpl : Int → Bool → (Fin m → K) → Fin m → K) (iluCode : Int) (ranks : List RankIn) (fs : List (Fact m K)) : Prop :=
  fs.length = ranks.length ∧ ∀ (r : Nat) (x : RankIn) (f : Fact m K), ranks[r]? = some x → fs[r]? = some f →
    AdjOk cl G F E mate cpl r x f.adj ∧ LOk x f.adj iluCode f.L ∧ ∃ B, Assembled cl G F E mate D cpl r x f.L B ∧ decompose invertDiag f.L B = .ok f.B

/-- The assembly and the factorization stay inside the arrays on every rank; they return, or stop at a pivot that cannot be
inverted. -/
theorem factor_spec (hD : Distributed per cl nl G gc ranks) (hN : Numbered per cl nl G ranks outs F) (hE : Orient per cl G ranks outs F E)
    (hM : Mates per G F mate) (hG : Given cl ranks outs rs D cpl b) (hts : SetupOk cl G F E mate cpl iluCode ranks ts) :
    factorAll ts rs ≠ .ub ∧ ∀ fs, factorAll ts rs = .ok fs → FactorOk cl G F E mate D cpl iluCode ranks fs := by
  have hstep : ∀ (r : Nat) (s : Rk m K), rs[r]? = some s → ∃ x t B, ranks[r]? = some x ∧ ts[r]? = some t ∧ AdjOk cl G F E mate cpl r x t.1 ∧ LOk x t.1 iluCode t.2.1 ∧
      Assembled cl G F E mate D cpl r x t.2.1 B ∧ (do
        let t ← idx ts r
        let B ← toJacobianLU s.sys s.J t.1 t.2.1
        Res.ok ({ adj := t.1, L := t.2.1, B := B } : Fact m K)) = (do
        let B' ← decompose invertDiag t.2.1 B
        .ok { adj := t.1, L := t.2.1, B := B' }) := by
    intro r s hs
    have hr : r < ranks.length := by rw [← hG.size]; exact (List.getElem?_eq_some_iff.1 hs).1
    have hx := List.getElem?_eq_getElem hr
    have ht := List.getElem?_eq_getElem (by rw [hts.1]; exact hr : r < ts.length)
    obtain ⟨ha, hL⟩ := hts.2 r _ _ hx ht
    obtain ⟨B, h1, h2⟩ := assemble_rank hD hN hE hM hG hx hs ha hL
    refine ⟨_, _, B, hx, ht, ha, hL, h2, ?_⟩
    simp only [(idx_ok_iff _ _ _).2 ht, Res.ok_bind, toJacobianLU, h1]
  constructor
  · refine forRanks_ne_ub _ rs 0 ?_
    intro r s hs
    obtain ⟨x, t, B, _, _, _, hL, _, e⟩ := hstep r s hs
    rw [Nat.zero_add, e]
    intro h
    rcases (Res.bind_ub_iff _ _).1 h with h | ⟨B', _, h⟩
    · exact decompose_defined hL.wf invertDiag B h
    · cases h
  · intro fs hfs
    obtain ⟨l1, h1⟩ := (forRanks_ok _ rs 0 fs).1 hfs
    refine ⟨by rw [l1, hG.size], ?_⟩
    intro r x f hx hf
    have hr : r < rs.length := by rw [hG.size]; exact (List.getElem?_eq_some_iff.1 hx).1
    have hs := List.getElem?_eq_getElem hr
    obtain ⟨f', hf', hf''⟩ := h1 r _ hs
    rw [hf] at hf'; cases Option.some.inj hf'
    obtain ⟨x', t, B, hx', _, ha, hL, hA, e⟩ := hstep r _ hs
    rw [hx] at hx'; cases Option.some.inj hx'
    rw [Nat.zero_add, e] at hf''
    obtain ⟨B', hB', ef⟩ := (Res.bind_ok_iff _ _ _).1 hf''
    cases Res.ok.inj ef
    exact ⟨ha, hL, B, hA, hB'⟩

/-- the matrices the ranks solve with -/
structure Solves (cl : List Nat) (G : List Cell) (F : Nat → Nat → Int) (E : Int → Nat × Nat) (mate : Nat → Nat → Option Nat) (D : Nat → Matrix (Fin m) (Fin m) K)
    (cpl : Int → Bool → (Fin m → K) → Fin m → K) (iluCode : Int) (ranks : List RankIn) (fs : List (Fact m K)) (P : Nat → Nat → Nat → Matrix (Fin m) (Fin m) K) : Prop where
  row : ∀ (r : Nat) (x : RankIn), ranks[r]? = some x → iluCode < 0 → ∀ l < x.nOwn, ∀ y : Nat → Fin m → K, (∑ o ∈ Finset.range x.nOwn, P r l o • y o) =
    D (before cl r + l) *ᵥ y l + offLast G F (firstSide E F) mate cpl (before cl r + l) (fun i' => Owns cl r i') fun i' => y (loc x i')
  near : ∀ (r : Nat) (x : RankIn), ranks[r]? = some x → ∀ l < x.nOwn, ∀ o < x.nOwn, (l = o ∨ ∃ j < nSides G (before cl r + l), mate (before cl r + l) j = some (before cl r + o)) →
    ∀ v, P r l o *ᵥ v = (if l = o then D (before cl r + l) *ᵥ v else 0) + offLast G F (firstSide E F) mate cpl (before cl r + l) (fun i' => i' = before cl r + o) fun _ => v
  solve : ∀ (r : Nat) (x : RankIn) (f : Fact m K), ranks[r]? = some x → fs[r]? = some f → ∀ c r0 : Nat → Fin m → K, ∃ y, Direct.solve f.L f.B c r0 = .ok y ∧
    ∀ l < f.L.n, (∑ o ∈ Finset.range f.L.n, P r l o • y o) = c l
  inj : ∀ (r : Nat) (x : RankIn), ranks[r]? = some x → ∀ y y' : Nat → Fin m → K, (∀ l < x.nOwn, (∑ o ∈ Finset.range x.nOwn, P r l o • y o) =
    ∑ o ∈ Finset.range x.nOwn, P r l o • y' o) → ∀ l < x.nOwn, y l = y' l

theorem linear_zero (hlin : LinearCouplings cpl) (q : Int) (s : Bool) : cpl q s 0 = 0 := by
  have := (hlin q s).2 0 0
  simpa using this

theorem solves_exist (hD : Distributed per cl nl G gc ranks) (hN : Numbered per cl nl G ranks outs F) (hM : Mates per G F mate) (hlin : LinearCouplings cpl)
    (hf : FactorOk cl G F E mate D cpl iluCode ranks fs) : ∃ P, Solves cl G F E mate D cpl iluCode ranks fs P := by
  classical
  have hrank : ∀ r : Nat, ∃ P : Nat → Nat → Matrix (Fin m) (Fin m) K, ∀ (x : RankIn), ranks[r]? = some x →
      (iluCode < 0 → ∀ l < x.nOwn, ∀ y : Nat → Fin m → K, (∑ o ∈ Finset.range x.nOwn, P l o • y o) =
        D (before cl r + l) *ᵥ y l + offLast G F (firstSide E F) mate cpl (before cl r + l) (fun i' => Owns cl r i') fun i' => y (loc x i')) ∧
      (∀ l < x.nOwn, ∀ o < x.nOwn, (l = o ∨ ∃ j < nSides G (before cl r + l), mate (before cl r + l) j = some (before cl r + o)) →
        ∀ v, P l o *ᵥ v = (if l = o then D (before cl r + l) *ᵥ v else 0) + offLast G F (firstSide E F) mate cpl (before cl r + l) (fun i' => i' = before cl r + o) fun _ => v) ∧
      (∀ f : Fact m K, fs[r]? = some f → ∀ c r0 : Nat → Fin m → K, ∃ y, Direct.solve f.L f.B c r0 = .ok y ∧ ∀ l < f.L.n, (∑ o ∈ Finset.range f.L.n, P l o • y o) = c l) ∧
      ∀ y y' : Nat → Fin m → K, (∀ l < x.nOwn, (∑ o ∈ Finset.range x.nOwn, P l o • y o) = ∑ o ∈ Finset.range x.nOwn, P l o • y' o) → ∀ l < x.nOwn, y l = y' l := by
    intro r
    by_cases hr : r < ranks.length
    · have hx := List.getElem?_eq_getElem hr
      have hrf : r < fs.length := by rw [hf.1]; exact hr
      have hfr := List.getElem?_eq_getElem hrf
      have hH := hD.holds r _ hx
      obtain ⟨ha, hL, B, hA, hB⟩ := hf.2 r _ _ hx hfr
      obtain ⟨P, h1, h2, h3⟩ := factors_rank hL.wf hB
      have hn := hL.n
      rw [hn] at h1 h3
      refine ⟨P, fun x hx' => ?_⟩
      rw [hx] at hx'; cases Option.some.inj hx'
      refine ⟨?_, ?_, ?_, h3⟩
      · intro hi l hl y
        rw [← row_mesh hD hN hM hlin hx hA hl y]
        exact Finset.sum_congr rfl fun o ho => by rw [h1 l hl o (Finset.mem_range.1 ho) (Or.inr (hL.closed hi))]
      · intro l hl o ho hlo v
        have hpat : InPattern fs[r].L (rename fs[r].L.o2n l) (rename fs[r].L.o2n o) := by
          rcases hlo with rfl | ⟨j, hj, hmt⟩
          · exact Or.inl rfl
          · obtain ⟨p1, p2, p3, p4⟩ := mate_place hD hN hM hx hl hj hmt
            have hoo := (is_own_add hH ho).2
            have hloc : loc ranks[r] (before cl r + o) = o := by have := p4 hoo; omega
            have hadj : o ∈ rowOf fs[r].adj l := by
              rw [rowOf, List.getD_eq_getElem?_getD, ha.2 _ hl, Option.getD_some, mem_ownNbrs]
              exact ⟨ho, j, hj, cpl (F (before cl r + l) j) (!firstSide E F (before cl r + l) j), by simp only [nbrs, hmt, Option.map_some, hloc]⟩
            obtain ⟨p, hp⟩ := List.getElem?_of_mem hadj
            obtain ⟨posRow, _, hpos⟩ := hL.pos _ hl
            obtain ⟨pos, _, hok⟩ := hpos p _ hp
            rcases hok with ⟨_, q, _, hq⟩ | ⟨_, q, _, hq⟩ | ⟨h, _⟩
            · exact Or.inr (Or.inl (List.mem_of_getElem? hq))
            · exact Or.inr (Or.inr (List.mem_of_getElem? hq))
            · exact Or.inl h.symm
        have h4 := row_mesh hD hN hM hlin hx hA hl (fun o' => if o' = o then v else 0)
        have h5 : (∑ o' ∈ Finset.range ranks[r].nOwn, oldBlock fs[r].L B l o' • (if o' = o then v else 0)) = oldBlock fs[r].L B l o • v := by
          rw [Finset.sum_eq_single o]
          · rw [if_pos rfl]
          · intro o' _ hne; rw [if_neg hne, smul_zero]
          · intro h; exact absurd (Finset.mem_range.2 ho) h
        rw [h5] at h4
        rw [h1 l hl o ho (Or.inl hpat)]
        refine Eq.trans (show oldBlock fs[r].L B l o *ᵥ v = oldBlock fs[r].L B l o • v from rfl) (h4.trans ?_)
        congr 1
        · by_cases h : l = o <;> simp [h]
        · rw [offLast, offLast]
          refine Finset.sum_congr rfl fun j hj => ?_
          cases hmt : mate (before cl r + l) j with
          | none => rfl
          | some i' =>
              obtain ⟨p1, p2, p3, p4⟩ := mate_place hD hN hM hx hl (Finset.mem_range.1 hj) hmt
              simp only
              by_cases hi' : i' = before cl r + o
              · subst hi'
                have hoo := (is_own_add hH ho).2
                have hloc : loc ranks[r] (before cl r + o) = o := by have := p4 hoo; omega
                simp only [hloc, if_true, true_and, hoo]
              · have hloc : Owns cl r i' → loc ranks[r] i' ≠ o := fun h => by have := p4 h; omega
                refine Eq.trans ?_ (if_neg fun h => hi' h.1).symm
                by_cases ho' : Owns cl r i'
                · rw [if_neg (hloc ho'), linear_zero hlin]
                  split <;> rfl
                · exact if_neg fun h => ho' h.1
      · intro f hf'
        rw [hfr] at hf'; cases Option.some.inj hf'
        exact h2
    · refine ⟨fun _ _ => 0, fun x hx => ?_⟩
      exact absurd (List.getElem?_eq_some_iff.1 hx).1 hr
  choose P hP using hrank
  exact ⟨P, fun r x hx hi => (hP r x hx).1 hi, fun r x hx => (hP r x hx).2.1, fun r x f hx hf => (hP r x hx).2.2.1 f hf, fun r x hx => (hP r x hx).2.2.2⟩

/-- one pass on all ranks -/
theorem pass_spec (hD : Distributed per cl nl G gc ranks) (hN : Numbered per cl nl G ranks outs F) (hE : Orient per cl G ranks outs F E)
    (hM : Mates per G F mate) (hG : Given cl ranks outs rs D cpl b) (hf : FactorOk cl G F E mate D cpl iluCode ranks fs)
    {P : Nat → Nat → Nat → Matrix (Fin m) (Fin m) K} (hP : Solves cl G F E mate D cpl iluCode ranks fs P) {X : Nat → Fin m → K} (hX : Has cl ranks rs X) :
    ∃ rs' X1, passAll fs rs = .ok (rs', fun k => ∑ i ∈ Finset.range G.length, |X i k - X1 i k|) ∧ Given cl ranks outs rs' D cpl b ∧ HasOwn cl rs' X1 ∧
      ∀ (r : Nat) (x : RankIn), ranks[r]? = some x → ∀ l < x.nOwn, (∑ o ∈ Finset.range x.nOwn, P r l o • X1 (before cl r + o)) = b (before cl r + l) -
        offIf G F (firstSide E F) mate cpl (before cl r + l) (fun i' => ¬ Owns cl r i') X := by
  obtain ⟨out, e1, l1, h1⟩ := N2C.forRanks_all (fun r (s : Rk m K) => do
    let f ← idx fs r
    let t ← luSolve s.sys f.L f.B s.rhs s.x s.tmp
    .ok (({ s with x := t.1, tmp := t.2.1 } : Rk m K), t.2.2))
    (fun r s y => ∀ x, ranks[r]? = some x → ∃ u d, y = (({ s with x := u, tmp := d } : Rk m K), ∑ l ∈ Finset.range x.nOwn, fun k => |X (before cl r + l) k - u.getD l 0 k|) ∧
      u.length = x.cells.length ∧ d.length = x.cells.length ∧ ∀ l < x.nOwn, (∑ o ∈ Finset.range x.nOwn, P r l o • u.getD o 0) = b (before cl r + l) -
        offIf G F (firstSide E F) mate cpl (before cl r + l) (fun i' => ¬ Owns cl r i') X) rs (by
    intro r s hs
    have hr : r < ranks.length := by rw [← hG.size]; exact (List.getElem?_eq_some_iff.1 hs).1
    have hx := List.getElem?_eq_getElem hr
    have hfr := List.getElem?_eq_getElem (by rw [hf.1]; exact hr : r < fs.length)
    obtain ⟨_, hL, _⟩ := hf.2 r _ _ hx hfr
    obtain ⟨u, d, h2, h3⟩ := luSolve_rank hD hN hE hM hG hX hx hs hL.n (hP.solve r _ _ hx hfr)
    simp only [(idx_ok_iff _ _ _).2 hfr, Res.ok_bind, h2]
    refine ⟨_, rfl, ?_⟩
    intro x hx'
    rw [hx] at hx'; cases hx'
    exact ⟨u, d, rfl, h3⟩)
  have hback : ∀ {r : Nat} {y : Rk m K × (Fin m → K)}, out[r]? = some y → ∃ x s u d, ranks[r]? = some x ∧ rs[r]? = some s ∧
      y = (({ s with x := u, tmp := d } : Rk m K), ∑ l ∈ Finset.range x.nOwn, fun k => |X (before cl r + l) k - u.getD l 0 k|) ∧
      u.length = x.cells.length ∧ d.length = x.cells.length ∧ ∀ l < x.nOwn, (∑ o ∈ Finset.range x.nOwn, P r l o • u.getD o 0) = b (before cl r + l) -
        offIf G F (firstSide E F) mate cpl (before cl r + l) (fun i' => ¬ Owns cl r i') X := by
    intro r y hy
    have hr : r < rs.length := by rw [← l1]; exact (List.getElem?_eq_some_iff.1 hy).1
    have hs := List.getElem?_eq_getElem hr
    have hx := List.getElem?_eq_getElem (by rw [← hG.size]; exact hr : r < ranks.length)
    obtain ⟨u, d, h⟩ := h1 r _ y hs hy _ hx
    exact ⟨_, _, u, d, hx, hs, h⟩
  have hG' : Given cl ranks outs (out.map (·.1)) D cpl b := by
    refine given_of hG (by rw [List.length_map, l1]) ?_
    intro r x s' hx hs'
    rw [List.getElem?_map] at hs'
    obtain ⟨y, hy, rfl⟩ := Option.map_eq_some_iff.1 hs'
    obtain ⟨x', s, u, d, hx', hs, rfl, h2, h3, _⟩ := hback hy
    rw [hx] at hx'; cases hx'
    exact ⟨s, hs, rfl, ⟨rfl, rfl, rfl⟩, hG.sound r s hs, rfl, h2, h3⟩
  obtain ⟨X1, hX1⟩ := own_exists (u := fun s => s.x) hD hG'.size (fun r x s hx hs => (hG'.lens r x s hx hs).1)
  have hval : ∀ {r : Nat} {x : RankIn} {s : Rk m K} {u d : List (Fin m → K)} {t : Fin m → K}, ranks[r]? = some x →
      out[r]? = some (({ s with x := u, tmp := d } : Rk m K), t) → ∀ l < x.nOwn, u.getD l 0 = X1 (before cl r + l) := by
    intro r x s u d t hx hy l hl
    have hH := hD.holds r x hx
    obtain ⟨hi, hoi⟩ := is_own_add hH hl
    have := hX1 r _ (before cl r + l) (by rw [List.getElem?_map, hy]; rfl) hoi
    rw [is_unique hH (own_index hH hoi).1 hi] at this
    rw [List.getD_eq_getElem?_getD, show u[l]? = _ from this]; rfl
  have hlen : (out.map (·.2)).length = cl.length := by rw [List.length_map, l1, hG.size, hD.nranks]
  have hsum : (out.map (·.2)).sum = fun k => ∑ i ∈ Finset.range G.length, |X i k - X1 i k| := by
    rw [sum_ranks cl (out.map (·.2)) (fun i k => |X i k - X1 i k|) hlen, hD.len]
    · funext k; rw [Finset.sum_apply]
    · intro r n t hn ht
      rw [List.getElem?_map] at ht
      obtain ⟨y, hy, rfl⟩ := Option.map_eq_some_iff.1 ht
      obtain ⟨x, s, u, d, hx, hs, rfl, _⟩ := hback hy
      have hH := hD.holds r x hx
      have hxn : x.nOwn = n := by
        have := hH.cellMap.faithful.size
        rw [hn] at this
        exact (Option.some.inj this).symm
      show (∑ l ∈ Finset.range x.nOwn, _) = _
      rw [hxn]
      refine Finset.sum_congr rfl fun l hl => ?_
      rw [hval hx hy l (by rw [hxn]; exact Finset.mem_range.1 hl)]
  refine ⟨out.map (·.1), X1, ?_, hG', (fun r s i hs ho => hX1 r s i hs ho), ?_⟩
  · simp only [passAll]
    rw [e1]
    simp only [Res.ok_bind, hsum]
  · intro r x hx l hl
    have hr : r < out.length := by rw [l1, hG.size]; exact (List.getElem?_eq_some_iff.1 hx).1
    have hy := List.getElem?_eq_getElem hr
    obtain ⟨x', s, u, d, hx', hs, ey, _, _, h5⟩ := hback hy
    rw [hx] at hx'; cases hx'
    rw [ey] at hy
    rw [← h5 l hl]
    exact Finset.sum_congr rfl fun o ho => by rw [hval hx hy o (Finset.mem_range.1 ho)]

/-- both passes with the exchanges -/
theorem direct_spec (hD : Distributed per cl nl G gc ranks) (hN : Numbered per cl nl G ranks outs F) (hE : Orient per cl G ranks outs F E)
    (hM : Mates per G F mate) (hG : Given cl ranks outs rs D cpl b) (hf : FactorOk cl G F E mate D cpl iluCode ranks fs)
    {P : Nat → Nat → Nat → Matrix (Fin m) (Fin m) K} (hP : Solves cl G F E mate D cpl iluCode ranks fs P) {X : Nat → Fin m → K} (hX : Has cl ranks rs X) :
    ∃ rs' X1 X', directPrecondition gc fs rs = .ok (rs', fun k => ∑ i ∈ Finset.range G.length, |X1 i k - X' i k|) ∧ Given cl ranks outs rs' D cpl b ∧ Has cl ranks rs' X' ∧
      ∀ (r : Nat) (x : RankIn), ranks[r]? = some x → ∀ l < x.nOwn,
        (∑ o ∈ Finset.range x.nOwn, P r l o • X1 (before cl r + o)) = b (before cl r + l) -
          offIf G F (firstSide E F) mate cpl (before cl r + l) (fun i' => ¬ Owns cl r i') X ∧
        (∑ o ∈ Finset.range x.nOwn, P r l o • X' (before cl r + o)) = b (before cl r + l) -
          offIf G F (firstSide E F) mate cpl (before cl r + l) (fun i' => ¬ Owns cl r i') X1 := by
  obtain ⟨rs1, X1, e1, g1, o1, q1⟩ := pass_spec hD hN hE hM hG hf hP hX
  obtain ⟨rs2, e2, g2, h2, _⟩ := pull_spec hD hN g1 o1
  obtain ⟨rs3, X', e3, g3, o3, q3⟩ := pass_spec hD hN hE hM g2 hf hP h2
  obtain ⟨rs4, e4, g4, h4, _⟩ := pull_spec hD hN g3 o3
  refine ⟨rs4, X1, X', ?_, g4, h4, fun r x hx l hl => ⟨q1 r x hx l hl, q3 r x hx l hl⟩⟩
  simp only [directPrecondition, e1, Res.ok_bind, e2, e3, e4]

/-! ## Dominant systems -/

open DNDSR.Direct (Dominant rsum rsum_nonneg rsum_zero matBlock decompose_dominant) in
/-- the assembled matrix of a rank of a dominant system is dominant -/
theorem assembled_dominant [IsStrictOrderedRing K] (hD : Distributed per cl nl G gc ranks) (hdom : DominantSystem G F (firstSide E F) mate D cpl)
    {r : Nat} {x : RankIn} (hx : ranks[r]? = some x) {adj : List (List Nat)} {L : LUStruct} {B : Blocks (Matrix (Fin m) (Fin m) K)} (hL : LOk x adj iluCode L)
    (hA : Assembled cl G F E mate D cpl r x L B) : Dominant L B := by
  have hH := hD.holds r x hx
  have hre := isReorder_re hL.wf.re
  intro i hi p
  generalize hl : rename L.n2o i = l
  have hlt : l < x.nOwn := by rw [← hl, ← hL.n]; exact hre.newLt i hi
  have hil : rename L.o2n l = i := by rw [← hl]; exact hre.newOld i hi
  have hdiag : matBlock L B i i = D (before cl r + l) := by
    rw [← hA.diag l hlt, oldBlock, hil]
  have hlG := own_lt hD (is_own_add hH hlt).2
  refine lt_of_le_of_lt ?_ (by rw [hdiag]; exact hdom _ hlG p)
  rw [hdiag]
  refine add_le_add_right ?_ _
  -- to old numbers
  have e1 : ∑ j ∈ (Finset.range L.n).erase i, ∑ q, |matBlock L B i j p q| = ∑ o ∈ (Finset.range L.n).erase l, rsum (oldBlock L B l o) p := by
    refine Finset.sum_nbij' (rename L.n2o) (rename L.o2n) ?_ ?_ ?_ ?_ ?_
    · intro j hj
      obtain ⟨h1, h2⟩ := Finset.mem_erase.1 hj
      have h2 := Finset.mem_range.1 h2
      refine Finset.mem_erase.2 ⟨fun h => h1 ?_, Finset.mem_range.2 (hre.newLt j h2)⟩
      rw [← hre.newOld j h2, h, hil]
    · intro o ho
      obtain ⟨h1, h2⟩ := Finset.mem_erase.1 ho
      have h2 := Finset.mem_range.1 h2
      refine Finset.mem_erase.2 ⟨fun h => h1 ?_, Finset.mem_range.2 (hre.oldLt o h2)⟩
      rw [← hre.oldNew o h2, h, hl]
    · intro j hj; exact hre.newOld j (Finset.mem_range.1 (Finset.mem_erase.1 hj).2)
    · intro o ho; exact hre.oldNew o (Finset.mem_range.1 (Finset.mem_erase.1 ho).2)
    · intro j hj
      rw [rsum, oldBlock, hil, hre.newOld j (Finset.mem_range.1 (Finset.mem_erase.1 hj).2)]
  rw [e1]
  let g : Nat → Nat → K := fun j o => match nbrs F E mate cpl x (before cl r + l) j with
    | none => 0
    | some t => if t.1 = o then rsum (asMatrix t.2) p else 0
  have hgn : ∀ j o, nbrs F E mate cpl x (before cl r + l) j = none → g j o = 0 := fun j o h => by simp only [g, h]
  have hgs : ∀ j o t, nbrs F E mate cpl x (before cl r + l) j = some t → g j o = if t.1 = o then rsum (asMatrix t.2) p else 0 := fun j o t h => by simp only [g, h]
  have hg0 : ∀ j o, 0 ≤ g j o := by
    intro j o
    cases h : nbrs F E mate cpl x (before cl r + l) j with
    | none => rw [hgn j o h]
    | some t =>
        rw [hgs j o t h]
        split
        · exact rsum_nonneg _ _
        · exact le_refl _
  have h1 : ∀ o ∈ (Finset.range L.n).erase l, rsum (oldBlock L B l o) p ≤ ∑ j ∈ Finset.range (nSides G (before cl r + l)), g j o := by
    intro o ho
    obtain ⟨ho1, ho2⟩ := Finset.mem_erase.1 ho
    rcases hA.off l hlt o (by rw [← hL.n]; exact Finset.mem_range.1 ho2) ho1 with ⟨j, hj, c, hn, _, e⟩ | ⟨_, e⟩
    · refine le_trans ?_ (Finset.single_le_sum (fun j _ => hg0 j o) (Finset.mem_range.2 hj))
      rw [hgs j o _ hn, if_pos rfl, e]
    · rw [e, rsum_zero]
      exact Finset.sum_nonneg fun j _ => hg0 j o
  refine (Finset.sum_le_sum h1).trans ?_
  rw [Finset.sum_comm]
  refine Finset.sum_le_sum fun j _ => ?_
  cases hmt : mate (before cl r + l) j with
  | none => exact le_of_eq (Finset.sum_eq_zero fun o _ => hgn j o (by rw [nbrs, hmt]; rfl))
  | some i' =>
      have hn : nbrs F E mate cpl x (before cl r + l) j = some (loc x i', cpl (F (before cl r + l) j) (!firstSide E F (before cl r + l) j)) := by rw [nbrs, hmt]; rfl
      have h2 : ∀ o, g j o = if loc x i' = o then ∑ q, |cpl (F (before cl r + l) j) (!firstSide E F (before cl r + l) j) (Pi.single q 1) p| else 0 := fun o => by
        rw [hgs j o _ hn]; rfl
      simp only [h2]
      rw [Finset.sum_ite_eq]
      split
      · exact le_refl _
      · exact Finset.sum_nonneg fun _ _ => abs_nonneg _

/-- so every rank of a dominant system is factorized -/
theorem factor_returns [IsStrictOrderedRing K] (hD : Distributed per cl nl G gc ranks) (hN : Numbered per cl nl G ranks outs F) (hE : Orient per cl G ranks outs F E)
    (hM : Mates per G F mate) (hG : Given cl ranks outs rs D cpl b) (hts : SetupOk cl G F E mate cpl iluCode ranks ts)
    (hdom : DominantSystem G F (firstSide E F) mate D cpl) : ∃ fs, factorAll ts rs = .ok fs := by
  obtain ⟨fs, e, _⟩ := N2C.forRanks_all (fun r (s : Rk m K) => do
    let t ← idx ts r
    let B ← toJacobianLU s.sys s.J t.1 t.2.1
    Res.ok ({ adj := t.1, L := t.2.1, B := B } : Fact m K)) (fun _ _ _ => True) rs (by
    intro r s hs
    have hr : r < ranks.length := by rw [← hG.size]; exact (List.getElem?_eq_some_iff.1 hs).1
    have hx := List.getElem?_eq_getElem hr
    have ht := List.getElem?_eq_getElem (by rw [hts.1]; exact hr : r < ts.length)
    obtain ⟨ha, hL⟩ := hts.2 r _ _ hx ht
    obtain ⟨B, h1, h2⟩ := assemble_rank hD hN hE hM hG hx hs ha hL
    obtain ⟨B', h3, _⟩ := Direct.decompose_dominant hL.wf (assembled_dominant hD hdom hx hL h2)
    simp only [(idx_ok_iff _ _ _).2 ht, Res.ok_bind, toJacobianLU, h1, h3]
    exact ⟨_, rfl, trivial⟩)
  exact ⟨fs, e⟩

end DNDSR.Sweep
