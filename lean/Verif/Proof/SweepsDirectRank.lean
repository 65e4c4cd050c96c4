import Verif.Proof.SweepsDirect
import Verif.Props.DirectLU
import Verif.Props.RCM
import Mathlib.LinearAlgebra.FiniteDimensional.Basic

/-! Helper lemmas for `Verif.Props.SweepsDirect`: setup, assembly and solution on one rank. -/

namespace DNDSR.Sweep

open DNDSR.Elem DNDSR.IMap DNDSR.MeshAdj
open DNDSR.Faces hiding rename
open DNDSR.Flux (nSides at64_ok firstSide isSlot_of lt_of_isSlot nSides_eq)
open DNDSR.Direct (LUStruct Blocks WF RowPosOk Re isReorder_re rename rowOf oldBlock matBlock foldRes foldRes_total SymAdj IsReorder Closed symbolic
  symbolic_covers decompose invertDiag invertDiag_inverts solve InPattern)
open Matrix
open scoped Matrix.Module

variable {m : Nat} {K : Type} [Field K] [LinearOrder K]
variable {per : Bool} {cl nl : List Nat} {G : List Cell} {gc : GOM} {ranks : List RankIn} {outs : List RankOut} {F : Nat → Nat → Int}
  {rs : List (Rk m K)} {D : Nat → Matrix (Fin m) (Fin m) K} {cpl : Int → Bool → (Fin m → K) → Fin m → K} {b : Nat → Fin m → K}
  {E : Int → Nat × Nat} {mate : Nat → Nat → Option Nat}

/-! ## Orderings -/

theorem invertTable_spec (n2o : List Nat) (hnd : n2o.Nodup) : ∀ (k : Nat) (o2n : List Nat), k ≤ n2o.length → (∀ v ∈ n2o, v < o2n.length) →
    (∀ (i v : Nat), i < n2o.length - k → n2o[i]? = some v → o2n[v]? = some i) →
    ∃ t, invertTable n2o k o2n = .ok t ∧ t.length = o2n.length ∧ ∀ i v : Nat, n2o[i]? = some v → t[v]? = some i := by
  intro k
  induction k with
  | zero =>
      intro o2n _ _ h
      exact ⟨o2n, rfl, rfl, fun i v hv => h i v (by simpa using (List.getElem?_eq_some_iff.1 hv).1) hv⟩
  | succ k ih =>
      intro o2n hk hlt h
      have hi : n2o.length - (k + 1) < n2o.length := by omega
      have hv := List.getElem?_eq_getElem hi
      have hvl := hlt _ (List.mem_of_getElem? hv)
      simp only [invertTable, (idx_ok_iff _ _ _).2 hv, Res.ok_bind, if_pos hvl]
      obtain ⟨t, h1, h2, h3⟩ := ih (o2n.set n2o[n2o.length - (k + 1)] (n2o.length - (k + 1))) (by omega) (by simpa using hlt) (by
        intro i v hi' hv'
        by_cases he : i = n2o.length - (k + 1)
        · subst he
          rw [hv] at hv'; cases Option.some.inj hv'
          rw [List.getElem?_set_self hvl]
        · rw [List.getElem?_set_ne, h i v (by omega) hv']
          intro hc
          apply he
          obtain ⟨hil, hiv⟩ := List.getElem?_eq_some_iff.1 hv'
          exact ((List.Nodup.getElem_inj_iff hnd).1 (by rw [hiv, hc])))
      exact ⟨t, h1, by rw [h2, List.length_set], h3⟩

/-- a list of all numbers, and the table of their places -/
theorem isReorder_of_list {n : Nat} {n2o t : List Nat} (hp : n2o.Perm (List.range n)) (hlen : t.length = n) (h : ∀ i v : Nat, n2o[i]? = some v → t[v]? = some i) :
    IsReorder n t n2o := by
  refine Or.inr ⟨hlen, by rw [hp.length_eq, List.length_range], ?_, ?_⟩
  · intro v hv
    obtain ⟨w, hw⟩ := List.getElem?_of_mem (hp.mem_iff.2 (List.mem_range.2 hv))
    exact ⟨w, by simpa [hp.length_eq] using (List.getElem?_eq_some_iff.1 hw).1, h w v hw, hw⟩
  · intro w hw
    have hwl : w < n2o.length := by rw [hp.length_eq, List.length_range]; exact hw
    have hg := List.getElem?_eq_getElem hwl
    exact ⟨_, List.mem_range.1 (hp.mem_iff.1 (List.mem_of_getElem? hg)), hg, h w _ hg⟩

theorem evenOdd_perm (n : Nat) : (evenOdd n).Perm (List.range n) := by
  have h := List.filter_append_perm (fun i => decide (i % 2 = 0)) (List.range n)
  rw [evenOdd]
  convert h using 3
  funext i
  by_cases hi : i % 2 = 0 <;> simp [hi]

/-- the ordering: always two inverse tables, or none -/
theorem fillOrdering_spec {lib : Int → List (List Nat) → Res (List Nat × List Nat)} (hlib : GoodLibrary lib) {code : Int} (hc : -1 ≤ code ∧ code ≤ 4)
    {adj : List (List Nat)} (hs : SymAdj adj.length adj) (h4 : code = 4 → adj.length ≤ 2 ^ 31 ∧ ∀ row ∈ adj, row.Nodup) :
    ∃ t, fillOrdering lib code adj = .ok t ∧ IsReorder adj.length t.1 t.2.1 ∧
      t.2.2 = if adj.length ≠ 0 ∧ (code = 3 ∨ code = 4) then 2 else 0 := by
  unfold fillOrdering
  by_cases h0 : adj.length = 0
  · rw [if_pos h0]
    exact ⟨_, rfl, Or.inl ⟨rfl, rfl⟩, by simp [h0]⟩
  rw [if_neg h0]
  by_cases h1 : code = -1
  · rw [if_pos h1]
    have hp := evenOdd_perm adj.length
    have hl : (evenOdd adj.length).length = adj.length := by rw [hp.length_eq, List.length_range]
    obtain ⟨t, e1, e2, e3⟩ := invertTable_spec (evenOdd adj.length) (hp.nodup_iff.2 List.nodup_range) adj.length (List.replicate adj.length 0)
      (by rw [hl]) (by
        intro v hv
        rw [List.length_replicate]
        exact List.mem_range.1 (hp.mem_iff.1 hv)) (by intro i v hi; rw [hl] at hi; omega)
    simp only [e1, Res.ok_bind]
    exact ⟨_, rfl, isReorder_of_list hp (by rw [e2, List.length_replicate]) e3, by simp [h1]⟩
  rw [if_neg h1]
  by_cases h2 : code = 0
  · rw [if_pos h2]
    exact ⟨_, rfl, Or.inl ⟨rfl, rfl⟩, by simp [h2]⟩
  rw [if_neg h2]
  by_cases h3 : code = 1 ∨ code = 2
  · rw [if_pos h3]
    obtain ⟨t, e, h⟩ := hlib code adj hs
    simp only [e, Res.ok_bind]
    exact ⟨_, rfl, h, by rw [if_neg]; omega⟩
  rw [if_neg h3]
  by_cases h5 : code = 3
  · rw [if_pos h5]
    obtain ⟨t, e, h⟩ := hlib code adj hs
    simp only [e, Res.ok_bind]
    exact ⟨_, rfl, h, by rw [if_pos]; omega⟩
  have h6 : code = 4 := by omega
  rw [if_neg h5, if_pos h6]
  obtain ⟨hsz, hnd⟩ := h4 h6
  have hrow : ∀ i : Int, RCM.Vertex (adj.map fun row => row.map Int.ofNat) i → ∃ k : Nat, i = k ∧ k < adj.length ∧ rowOf adj k ∈ adj ∧
      RCM.nbr (adj.map fun row => row.map Int.ofNat) i = (rowOf adj k).map Int.ofNat := by
    rintro i ⟨h0, h1⟩
    rw [List.length_map] at h1
    have hk : i.toNat < adj.length := by omega
    refine ⟨i.toNat, by omega, hk, ?_, ?_⟩
    · rw [rowOf, List.getD_eq_getElem?_getD, List.getElem?_eq_getElem hk, Option.getD_some]
      exact List.getElem_mem hk
    · rw [RCM.nbr, if_pos h0, rowOf, List.getD_eq_getElem?_getD, List.getElem?_map, List.getElem?_eq_getElem hk, List.getD_eq_getElem?_getD, List.getElem?_eq_getElem hk]
      rfl
  have hg : RCM.Symmetric (adj.map fun row => row.map Int.ofNat) := by
    constructor
    · intro i hi
      obtain ⟨k, _, _, hm, e⟩ := hrow i hi
      rw [e]
      exact ((hnd _ hm).map (fun _ _ h => Int.ofNat.inj h)).filter _
    · intro i hi j hj _
      obtain ⟨k, rfl, hk, hm, e⟩ := hrow i hi
      rw [e] at hj
      obtain ⟨j', hj', rfl⟩ := List.mem_map.1 hj
      obtain ⟨h1, h2⟩ := hs.2 k hk j' hj'
      have hv : RCM.Vertex (adj.map fun row => row.map Int.ofNat) (Int.ofNat j') := ⟨Int.natCast_nonneg _, by rw [List.length_map]; exact Int.ofNat_lt.2 h1⟩
      refine ⟨hv, ?_⟩
      obtain ⟨k', hk', _, _, e'⟩ := hrow _ hv
      have : j' = k' := Int.ofNat.inj hk'
      subst this
      rw [e']
      exact List.mem_map.2 ⟨k, h2, rfl⟩
  obtain ⟨o, e, ⟨l1, l2, hinv⟩, _⟩ := RCM.reorder_permutation hg (by simpa using hsz)
  simp only [e, Res.ok_bind]
  rw [List.length_map] at l1 l2 hinv
  refine ⟨_, rfl, Or.inr ⟨by rw [List.length_map, l2], by rw [List.length_map, l1], ?_, ?_⟩, by rw [if_pos]; omega⟩
  · intro v hv
    obtain ⟨_, h1, h2, h3⟩ := hinv v (by omega) (by omega)
    have hg1 := List.getElem?_eq_getElem (l := o.old2New) (i := v) (by omega)
    have e1 : RCM.entry o.old2New v = o.old2New[v]'(by omega) := by
      rw [RCM.entry, if_pos (by omega), Int.toNat_natCast, List.getD_eq_getElem?_getD, hg1]; rfl
    rw [e1] at h1 h2 h3
    have hw : (o.old2New[v]'(by omega)).toNat < o.new2Old.length := by omega
    have hg2 := List.getElem?_eq_getElem hw
    have e2 : RCM.entry o.new2Old (o.old2New[v]'(by omega)) = o.new2Old[(o.old2New[v]'(by omega)).toNat] := by
      rw [RCM.entry, if_pos h1, List.getD_eq_getElem?_getD, hg2]; rfl
    rw [e2] at h3
    refine ⟨(o.old2New[v]'(by omega)).toNat, by omega, by rw [List.getElem?_map, hg1]; rfl, ?_⟩
    rw [List.getElem?_map, hg2, Option.map_some, h3, Int.toNat_natCast]
  · intro v hv
    obtain ⟨⟨h1, h2, h3⟩, _⟩ := hinv v (by omega) (by omega)
    have hg1 := List.getElem?_eq_getElem (l := o.new2Old) (i := v) (by omega)
    have e1 : RCM.entry o.new2Old v = o.new2Old[v]'(by omega) := by
      rw [RCM.entry, if_pos (by omega), Int.toNat_natCast, List.getD_eq_getElem?_getD, hg1]; rfl
    rw [e1] at h1 h2 h3
    have hw : (o.new2Old[v]'(by omega)).toNat < o.old2New.length := by omega
    have hg2 := List.getElem?_eq_getElem hw
    have e2 : RCM.entry o.old2New (o.new2Old[v]'(by omega)) = o.old2New[(o.new2Old[v]'(by omega)).toNat] := by
      rw [RCM.entry, if_pos h1, List.getD_eq_getElem?_getD, hg2]; rfl
    rw [e2] at h3
    refine ⟨(o.new2Old[v]'(by omega)).toNat, by omega, by rw [List.getElem?_map, hg1]; rfl, ?_⟩
    rw [List.getElem?_map, hg2, Option.map_some, h3, Int.toNat_natCast]

/-! ## The local structure -/

/-- an own cell is on one side of each of its faces -/
theorem row_touch (hD : Distributed per cl nl G gc ranks) (hN : Numbered per cl nl G ranks outs F) (hE : Orient per cl G ranks outs F E)
    (hG : Given cl ranks outs rs D cpl b) {r : Nat} {x : RankIn} {o : RankOut} {s : Rk m K}
    (hx : ranks[r]? = some x) (ho : outs[r]? = some o) (hs : rs[r]? = some s) {l i : Nat} (hi : Is cl r x l i) (hoi : Owns cl r i) {row : List Int}
    (hrow : o.c2f[l]? = some row) (hlen : row.length = nSides G i) : ∀ e ∈ row, ∃ f, at64 s.sys.faces e = .ok f ∧ (f.first = l ∨ f.second = l) := by
  have hH := hD.holds r x hx
  intro e he
  obtain ⟨j, he⟩ := List.getElem?_of_mem he
  have hj : j < nSides G i := by rw [← hlen]; exact (List.getElem?_eq_some_iff.1 he).1
  obtain ⟨a, ha⟩ := isSlot_of (per := per) hj
  obtain ⟨v, f, h1, hn, hf⟩ := own_face hN hx ho hi hoi ha
  have : e = (v : Int) := gives_unique ⟨row, hrow, he⟩ h1
  subst this
  have hq := hN.range i j a ha
  obtain ⟨⟨l1, e1, h4⟩, h5⟩ := hE.face r x o _ _ f hx ho hq hn hf
  obtain ⟨hs1, c, hc⟩ := hE.slot _ hq
  refine ⟨f, by rw [(hG.faces r o s ho hs).1]; exact at64_ok hf, ?_⟩
  by_cases hfs : E (F i j) = (i, j)
  · left
    rw [hfs] at h4
    rw [e1, is_unique hH h4 hi]
  · right
    rcases h5 with ⟨_, _, h6⟩ | ⟨l', i', j', b', e', h6, hb, hne', h7⟩
    · exact absurd (h6 i j a ha rfl).symm hfs
    · have := two_sides hD hN hc ha hb (by rw [hs1]) (by rw [h7, hs1]) (fun h => hfs h.symm) hne'
      cases this
      rw [e', is_unique hH h6 hi]

/-- what a rank knows about its own cells -/
def AdjOk (cl : List Nat) (G : List Cell) (F : Nat → Nat → Int) (E : Int → Nat × Nat) (mate : Nat → Nat → Option Nat) (cpl : Int → Bool → (Fin m → K) → Fin m → K)
    (r : Nat) (x : RankIn) (adj : List (List Nat)) : Prop :=
  SymAdj x.nOwn adj ∧ ∀ l < x.nOwn, adj[l]? = some (ownNbrs x.nOwn (nbrs F E mate cpl x (before cl r + l)) (nSides G (before cl r + l)))

theorem adj_rank (hD : Distributed per cl nl G gc ranks) (hN : Numbered per cl nl G ranks outs F) (hE : Orient per cl G ranks outs F E)
    (hM : Mates per G F mate) (hG : Given cl ranks outs rs D cpl b) {r : Nat} {x : RankIn} {s : Rk m K}
    (hx : ranks[r]? = some x) (hs : rs[r]? = some s) : ∃ adj, cell2cellFace s.sys = .ok adj ∧ AdjOk cl G F E mate cpl r x adj := by
  have hH := hD.holds r x hx
  obtain ⟨o, ho⟩ := rank_of hN hx
  obtain ⟨hn, _⟩ := hG.own r x s hx hs
  obtain ⟨adj, e1, e2, e3⟩ := N2C.forRanks_all (fun _ iCell => do
    let row ← idx s.sys.c2f iCell
    cell2cellRow s.sys iCell row) (fun l _ row => row = ownNbrs x.nOwn (nbrs F E mate cpl x (before cl r + l)) (nSides G (before cl r + l))) (List.range s.sys.n) (by
      intro k l hk
      obtain ⟨hk1, hk2⟩ := List.getElem?_eq_some_iff.1 hk
      simp only [List.length_range] at hk1
      simp only [List.getElem_range] at hk2
      subst hk2
      have hl : k < x.nOwn := by omega
      obtain ⟨hi, hoi⟩ := is_own_add hH hl
      obtain ⟨row, h1, h2⟩ := row_of hD hN hx ho hi hoi
      have hr1 : s.sys.c2f[k]? = some row := by rw [(hG.faces r o s ho hs).2]; exact h1
      simp only [(idx_ok_iff _ _ _).2 hr1, Res.ok_bind]
      rw [cell2cellRow_spec s.sys row _ (fitRow hD hN hE hM hG hx ho hs hi hoi h1 h2) (row_touch hD hN hE hG hx ho hs hi hoi h1 h2), h2, hn]
      exact ⟨_, rfl, rfl⟩)
  rw [List.length_range, hn] at e2
  have hrow : ∀ l < x.nOwn, adj[l]? = some (ownNbrs x.nOwn (nbrs F E mate cpl x (before cl r + l)) (nSides G (before cl r + l))) := by
    intro l hl
    have hg := List.getElem?_eq_getElem (by rw [e2]; exact hl : l < adj.length)
    rw [hg, e3 l l _ (by rw [List.getElem?_range (by omega)]) hg]
  have hrow' : ∀ l < x.nOwn, rowOf adj l = ownNbrs x.nOwn (nbrs F E mate cpl x (before cl r + l)) (nSides G (before cl r + l)) := by
    intro l hl
    rw [rowOf, List.getD_eq_getElem?_getD, hrow l hl]; rfl
  refine ⟨adj, e1, ⟨e2, ?_⟩, hrow⟩
  intro l hl o' ho'
  rw [hrow' l hl, mem_ownNbrs] at ho'
  obtain ⟨hon, j, hj, c, hc⟩ := ho'
  refine ⟨hon, ?_⟩
  rw [hrow' o' hon, mem_ownNbrs]
  refine ⟨hl, ?_⟩
  simp only [nbrs, Option.map_eq_some_iff] at hc
  obtain ⟨i', hmt, hp⟩ := hc
  have hlo : loc x i' = o' := congrArg Prod.fst hp
  obtain ⟨p1, p2, p3, p4⟩ := mate_place hD hN hM hx hl hj hmt
  rw [hlo] at p1 p3 p4
  have hi' := p4 (p3.1 hon)
  obtain ⟨a, ha⟩ := isSlot_of (per := per) hj
  obtain ⟨j', b', hb', e', hne⟩ := (hM _ j a ha i').1 hmt
  have hmt' : mate i' j' = some (before cl r + l) := (hM i' j' b' hb' _).2 ⟨j, a, ha, e'.symm, fun h => hne h.symm⟩
  rw [← hi']
  refine ⟨j', lt_of_isSlot hb', cpl (F i' j') (!firstSide E F i' j'), ?_⟩
  simp only [nbrs, hmt', Option.map_some, loc_eq hH (is_own_add hH hl).1]

/-- the rows list a cell once if no two cells share two faces -/
theorem adj_nodup (hD : Distributed per cl nl G gc ranks) (hN : Numbered per cl nl G ranks outs F) (hM : Mates per G F mate) (h1 : SingleFace G mate)
    {r : Nat} {x : RankIn} (hx : ranks[r]? = some x) {adj : List (List Nat)} (ha : AdjOk cl G F E mate cpl r x adj) : ∀ row ∈ adj, row.Nodup := by
  have hH := hD.holds r x hx
  intro row hrow
  obtain ⟨l, hl⟩ := List.getElem?_of_mem hrow
  have hln : l < x.nOwn := by rw [← ha.1.1]; exact (List.getElem?_eq_some_iff.1 hl).1
  rw [ha.2 l hln] at hl
  cases Option.some.inj hl
  rw [ownNbrs, List.Nodup, List.pairwise_filterMap]
  refine List.Pairwise.imp_of_mem ?_ (List.nodup_range (n := nSides G (before cl r + l)))
  intro j j' hj hj' hne o ho o' ho' e
  subst e
  apply hne
  have key : ∀ k < nSides G (before cl r + l), ((nbrs F E mate cpl x (before cl r + l) k).bind fun p => if p.1 < x.nOwn then some p.1 else none) = some o →
      mate (before cl r + l) k = some (before cl r + o) := by
    intro k hk hko
    cases hmt : mate (before cl r + l) k with
    | none => simp [nbrs, hmt] at hko
    | some i' =>
        obtain ⟨_, _, p3, p4⟩ := mate_place hD hN hM hx hln hk hmt
        simp only [nbrs, hmt, Option.map_some, Option.bind_some] at hko
        split at hko
        · next hlt =>
          have := Option.some.inj hko
          rw [← this, p4 (p3.1 hlt)]
          congr 2
          exact (loc_eq hH (by rw [← p4 (p3.1 hlt)]; assumption)).symm
        · cases hko
  rw [List.mem_range] at hj hj'
  exact h1 _ j j' _ hj hj' (key j hj ho) (key j' hj' ho')

/-- the structure of the factorization on a rank -/
structure LOk (x : RankIn) (adj : List (List Nat)) (iluCode : Int) (L : LUStruct) : Prop where
  n : L.n = x.nOwn
  wf : WF L
  closed : iluCode < 0 → Closed L
  pos : ∀ l < x.nOwn, ∃ posRow, L.rowPos[l]? = some posRow ∧ ∀ (p o : Nat), (rowOf adj l)[p]? = some o →
    ∃ pos, posRow[p]? = some pos ∧ RowPosOk L.low L.upp (rename L.o2n l) (rename L.o2n o) pos

theorem structure_rank (ord : List Nat → List Nat) (hord : ∀ l, (ord l).Perm l) {x : RankIn} {adj : List (List Nat)} (ha : SymAdj x.nOwn adj) {o2n n2o : List Nat}
    (hre : IsReorder x.nOwn o2n n2o) {iluCode : Int} (hilu : iluCode ≤ 5) : ∃ L, symbolic ord adj o2n n2o x.nOwn iluCode = .ok L ∧ LOk x adj iluCode L := by
  obtain ⟨L, h1, h2, h3, h4, h5, h6, h7, h8, h9, h10⟩ := symbolic_covers ord hord x.nOwn adj ha o2n n2o hre iluCode hilu
  obtain ⟨L', g1, _, _, _, _, _, _, _, g9⟩ := Direct.symbolic_spec ha hre hord hilu
  rw [h1] at g1; cases Res.ok.inj g1
  refine ⟨L, h1, h2, h5, h8, ?_⟩
  intro l hl
  obtain ⟨r, r1, _, r2⟩ := g9 l hl
  refine ⟨r, r1, fun p o hp => ?_⟩
  rw [h3]
  exact r2 p o hp

/-! ## Assembly -/

/-- the assembled blocks in the numbers of the cells: the diagonal blocks, and for every other own cell the coupling through the
last face with it -/
structure Assembled (cl : List Nat) (G : List Cell) (F : Nat → Nat → Int) (E : Int → Nat × Nat) (mate : Nat → Nat → Option Nat) (D : Nat → Matrix (Fin m) (Fin m) K)
    (cpl : Int → Bool → (Fin m → K) → Fin m → K) (r : Nat) (x : RankIn) (L : LUStruct) (B : Blocks (Matrix (Fin m) (Fin m) K)) : Prop where
  fresh : B.decomposed = false
  diag : ∀ l < x.nOwn, oldBlock L B l l = D (before cl r + l)
  off : ∀ l < x.nOwn, ∀ o < x.nOwn, o ≠ l → RowVal (nbrs F E mate cpl x (before cl r + l)) (nSides G (before cl r + l)) o 0 (oldBlock L B l o)

theorem assemble_rank (hD : Distributed per cl nl G gc ranks) (hN : Numbered per cl nl G ranks outs F) (hE : Orient per cl G ranks outs F E)
    (hM : Mates per G F mate) (hG : Given cl ranks outs rs D cpl b) {r : Nat} {x : RankIn} {s : Rk m K}
    (hx : ranks[r]? = some x) (hs : rs[r]? = some s) {adj : List (List Nat)} (ha : AdjOk cl G F E mate cpl r x adj) {iluCode : Int} {L : LUStruct}
    (hL : LOk x adj iluCode L) : ∃ B, assemble s.sys s.J adj L = .ok B ∧ Assembled cl G F E mate D cpl r x L B := by
  have hH := hD.holds r x hx
  obtain ⟨o, ho⟩ := rank_of hN hx
  obtain ⟨hn, _⟩ := hG.own r x s hx hs
  have hre := isReorder_re hL.wf.re
  have hnL := hL.n
  have hrowOf : ∀ l < x.nOwn, rowOf adj l = ownNbrs x.nOwn (nbrs F E mate cpl x (before cl r + l)) (nSides G (before cl r + l)) := by
    intro l hl
    rw [rowOf, List.getD_eq_getElem?_getD, ha.2 l hl]; rfl
  have hzero : ∀ i o, oldBlock L ({ diag := fun _ => 0, lower := fun _ _ => 0, upper := fun _ _ => 0, decomposed := false } : Blocks (Matrix (Fin m) (Fin m) K)) i o = 0 := by
    intro i o
    simp [oldBlock, matBlock, Direct.diagBlock, Direct.lowBlock, Direct.uppBlock]
  obtain ⟨B, h1, h2, h3, h4⟩ := foldRes_total (assembleCell s.sys s.J adj L)
    (fun t B => B.decomposed = false ∧ (∀ l < x.nOwn, l < t → oldBlock L B l l = D (before cl r + l) ∧
      ∀ o < x.nOwn, o ≠ l → RowVal (nbrs F E mate cpl x (before cl r + l)) (nSides G (before cl r + l)) o 0 (oldBlock L B l o)) ∧
      ∀ l < x.nOwn, t ≤ l → ∀ o < x.nOwn, oldBlock L B l o = 0)
    (List.range s.sys.n) _ ⟨rfl, fun l _ h => absurd h (by omega), fun l _ _ o _ => hzero l o⟩ (by
      rintro t l B hk ⟨q1, q2, q3⟩
      obtain ⟨hk1, hk2⟩ := List.getElem?_eq_some_iff.1 hk
      simp only [List.length_range] at hk1
      simp only [List.getElem_range] at hk2
      subst hk2
      have hl : t < x.nOwn := by omega
      obtain ⟨hi, hoi⟩ := is_own_add hH hl
      obtain ⟨row, r1, r2⟩ := row_of hD hN hx ho hi hoi
      have hr1 : s.sys.c2f[t]? = some row := by rw [(hG.faces r o s ho hs).2]; exact r1
      obtain ⟨posRow, p1, p2⟩ := hL.pos t hl
      have hv := hG.blocks r _ s hoi hs
      rw [is_unique hH (own_index hH hoi).1 hi] at hv
      have hfit := fitRow hD hN hE hM hG hx ho hs hi hoi r1 r2
      obtain ⟨B1, s1, s2, s3, s4⟩ := assembleRow_spec s.sys hL.wf hre (by omega) (by omega) (rowOf adj t) posRow p2 row _ B hfit (by
        intro j hj o' c hc
        rw [r2] at hj
        have hc0 := hc
        simp only [nbrs, Option.map_eq_some_iff] at hc
        obtain ⟨i', hmt, hp⟩ := hc
        have hlo : loc x i' = o' := congrArg Prod.fst hp
        obtain ⟨_, g2, _⟩ := mate_place hD hN hM hx hl hj hmt
        rw [hlo] at g2
        refine ⟨g2, fun hon => ?_⟩
        rw [hrowOf t hl, mem_ownNbrs]
        exact ⟨by omega, j, hj, c, hc0⟩)
      have hadj := ha.2 t hl
      rw [← hrowOf t hl] at hadj
      simp only [assembleCell, (idx_ok_iff _ _ _).2 hr1, (idx_ok_iff _ _ _).2 hadj, (idx_ok_iff _ _ _).2 p1, Res.ok_bind, s1, hv]
      obtain ⟨d1, d2⟩ := Direct.matBlock_setDiag hL.wf B1 (hre.oldLt t (by omega)) (D (before cl r + t))
      rw [hre.oldNew t (by omega)] at d1 d2
      have hsame : ∀ i < x.nOwn, ∀ o < x.nOwn, (i, o) ≠ (t, t) → oldBlock L (B1.setDiag t (D (before cl r + t))) i o = oldBlock L B1 i o := by
        intro i hi o ho hne
        refine d2 _ (hre.oldLt i (by omega)) _ (fun h => hne ?_)
        have e1 := congrArg (fun p => (rename L.n2o p.1, rename L.n2o p.2)) h
        simpa only [hre.oldNew i (by omega), hre.oldNew o (by omega), hre.oldNew t (by omega)] using e1
      refine ⟨_, rfl, by rw [Blocks.setDiag, s2, q1], ?_, ?_⟩
      · intro l hln hlt
        by_cases hlt' : l = t
        · subst hlt'
          refine ⟨d1, fun o' ho' hne => ?_⟩
          rw [hsame l hln o' ho' (fun h => hne (congrArg Prod.snd h)), ← r2, ← q3 l hln (le_refl _) o' ho']
          exact s4 o' (by omega) hne
        · obtain ⟨u1, u2⟩ := q2 l hln (by omega)
          refine ⟨?_, fun o' ho' hne => ?_⟩
          · rw [hsame l hln l hln (fun h => hlt' (congrArg Prod.fst h)), s3 l (by omega) l (by omega) hlt', u1]
          · rw [hsame l hln o' ho' (fun h => hlt' (congrArg Prod.fst h)), s3 l (by omega) o' (by omega) hlt']
            exact u2 o' ho' hne
      · intro l hln hle o' ho'
        rw [hsame l hln o' ho' (fun h => by have := congrArg Prod.fst h; simp only at this; omega), s3 l (by omega) o' (by omega) (by omega)]
        exact q3 l hln (by omega) o' ho')
  rw [List.length_range, hn] at h3
  exact ⟨B, h1, h2, fun l hl => (h3 l hl hl).1, fun l hl => (h3 l hl hl).2⟩

/-! ## Solution -/

theorem sum_reorder {n : Nat} {o2n n2o : List Nat} (hre : Re n o2n n2o) {M : Type} [AddCommMonoid M] (f : Nat → M) :
    (∑ o ∈ Finset.range n, f (rename o2n o)) = ∑ j ∈ Finset.range n, f j := by
  refine Finset.sum_nbij' (rename o2n) (rename n2o) ?_ ?_ ?_ ?_ ?_
  · intro o ho; exact Finset.mem_range.2 (hre.oldLt o (Finset.mem_range.1 ho))
  · intro o ho; exact Finset.mem_range.2 (hre.newLt o (Finset.mem_range.1 ho))
  · intro o ho; exact hre.oldNew o (Finset.mem_range.1 ho)
  · intro o ho; exact hre.newOld o (Finset.mem_range.1 ho)
  · intro o _; rfl

/-- The factors of a decomposition, in the numbers of the cells: their product `P` agrees with the blocks on the pattern, and is the
matrix of the blocks if the pattern is closed under fill-in; `Solve` solves with `P`, and there is only one solution. -/
theorem factors_rank {L : LUStruct} (hL : WF L) {B B' : Blocks (Matrix (Fin m) (Fin m) K)} (hd : decompose invertDiag L B = .ok B') :
    ∃ P : Nat → Nat → Matrix (Fin m) (Fin m) K,
      (∀ l < L.n, ∀ o < L.n, InPattern L (rename L.o2n l) (rename L.o2n o) ∨ Closed L → P l o = oldBlock L B l o) ∧
      (∀ c r0 : Nat → Fin m → K, ∃ y, solve L B' c r0 = .ok y ∧ ∀ l < L.n, (∑ o ∈ Finset.range L.n, P l o • y o) = c l) ∧
      ∀ y y' : Nat → Fin m → K, (∀ l < L.n, (∑ o ∈ Finset.range L.n, P l o • y o) = ∑ o ∈ Finset.range L.n, P l o • y' o) → ∀ l < L.n, y l = y' l := by
  have hre := isReorder_re hL.re
  obtain ⟨d1, d2⟩ := (Direct.decompose_spec hL invertDiag B).2 B' hd
  let P0 : Nat → Nat → Matrix (Fin m) (Fin m) K := fun i j => ∑ k ∈ Finset.range L.n, Direct.factorL L B' i k * Direct.factorU L B' (Direct.pivot L B B') k j
  have hsolve : ∀ c r0 : Nat → Fin m → K, ∃ y, solve L B' c r0 = .ok y ∧ ∀ l < L.n,
      (∑ o ∈ Finset.range L.n, P0 (rename L.o2n l) (rename L.o2n o) • y o) = c l := by
    intro c r0
    obtain ⟨x, y, h1, h2, h3⟩ := Direct.solve_spec hL B' d1 c r0
    refine ⟨x, h1, fun l hl => ?_⟩
    have := Direct.product_solves L.n P0 (Direct.lowBlock L B') (Direct.uppBlock L B') (Direct.pivot L B B') (Direct.diagBlock L B')
      (fun i => x (rename L.n2o i)) (fun i => y (rename L.n2o i)) (fun i => c (rename L.n2o i))
      (fun i hi j hj => Direct.prod_eq hL B' _ hi hj) (fun i hi => (invertDiag_inverts _ _ (d2 i hi).diag).1) h2 h3 (rename L.o2n l) (hre.oldLt l hl)
    simp only [hre.oldNew l hl] at this
    rw [← this, ← sum_reorder hre fun j => P0 (rename L.o2n l) j • x (rename L.n2o j)]
    refine Finset.sum_congr rfl fun o ho => ?_
    rw [hre.oldNew o (Finset.mem_range.1 ho)]
  refine ⟨fun l o => P0 (rename L.o2n l) (rename L.o2n o), ?_, hsolve, ?_⟩
  · intro l hl o ho h
    show P0 _ _ = matBlock L B _ _
    by_cases hp : InPattern L (rename L.o2n l) (rename L.o2n o)
    · exact Direct.product_on_pattern hL invertDiag invertDiag_inverts B B' d2 (hre.oldLt l hl) (hre.oldLt o ho) hp
    · rw [show P0 (rename L.o2n l) (rename L.o2n o) = 0 from
        Direct.product_off_pattern hL (h.resolve_left hp) B' _ (hre.oldLt l hl) (hre.oldLt o ho) hp, Direct.matBlock_off hL B hp]
  · let f : (Fin L.n → Fin m → K) →ₗ[K] (Fin L.n → Fin m → K) :=
      { toFun := fun y l => ∑ o : Fin L.n, P0 (rename L.o2n l) (rename L.o2n o) *ᵥ y o
        map_add' := fun y z => by
          funext l
          simp only [Pi.add_apply, mulVec_add, Finset.sum_add_distrib]
        map_smul' := fun a y => by
          funext l
          simp only [Pi.smul_apply, mulVec_smul, Finset.smul_sum, RingHom.id_apply] }
    have hf : ∀ (y : Nat → Fin m → K) (l : Fin L.n), f (fun o => y o) l = ∑ o ∈ Finset.range L.n, P0 (rename L.o2n l) (rename L.o2n o) • y o :=
      fun y l => (Finset.sum_range fun o => P0 (rename L.o2n l) (rename L.o2n o) • y o).symm
    have hsurj : Function.Surjective f := by
      intro c
      obtain ⟨y, _, h⟩ := hsolve (fun l => if hl : l < L.n then c ⟨l, hl⟩ else 0) 0
      refine ⟨fun o => y o, ?_⟩
      funext l
      rw [hf, h l l.2, dif_pos l.2]
    have hinj := LinearMap.injective_iff_surjective.2 hsurj
    intro y y' h l hl
    have := hinj (a₁ := fun o : Fin L.n => y o) (a₂ := fun o : Fin L.n => y' o) (by
      funext l
      rw [hf, hf]
      exact h l l.2)
    exact congrFun this ⟨l, hl⟩

open Classical in
/-- the row of an own cell in the numbers of the mesh -/
theorem row_mesh (hD : Distributed per cl nl G gc ranks) (hN : Numbered per cl nl G ranks outs F) (hM : Mates per G F mate) (hlin : LinearCouplings cpl)
    {r : Nat} {x : RankIn} (hx : ranks[r]? = some x) {L : LUStruct} {B : Blocks (Matrix (Fin m) (Fin m) K)} (hA : Assembled cl G F E mate D cpl r x L B)
    {l : Nat} (hl : l < x.nOwn) (y : Nat → Fin m → K) :
    (∑ o ∈ Finset.range x.nOwn, oldBlock L B l o • y o) = D (before cl r + l) *ᵥ y l +
      offLast G F (firstSide E F) mate cpl (before cl r + l) (fun i' => Owns cl r i') fun i' => y (loc x i') := by
  have hH := hD.holds r x hx
  have hplace : ∀ j < nSides G (before cl r + l), ∀ o c, nbrs F E mate cpl x (before cl r + l) j = some (o, c) →
      ∃ i', mate (before cl r + l) j = some i' ∧ loc x i' = o ∧ c = cpl (F (before cl r + l) j) (!firstSide E F (before cl r + l) j) := by
    intro j _ o c hc
    simp only [nbrs, Option.map_eq_some_iff] at hc
    obtain ⟨i', hmt, hp⟩ := hc
    exact ⟨i', hmt, congrArg Prod.fst hp, (congrArg Prod.snd hp).symm⟩
  rw [row_equation (fun o => oldBlock L B l o) (D (before cl r + l)) (nbrs F E mate cpl x (before cl r + l)) hl (hA.diag l hl) (fun o ho hne => hA.off l hl o ho hne)
    (fun j hj o c hc => by
      obtain ⟨i', hmt, h1, _⟩ := hplace j hj o c hc
      rw [← h1]
      exact (mate_place hD hN hM hx hl hj hmt).2.1)
    (fun j hj o c hc => by
      obtain ⟨i', _, _, h1⟩ := hplace j hj o c hc
      rw [h1]
      exact hlin _ _) y, offLast]
  congr 1
  refine Finset.sum_congr rfl fun j hj => ?_
  rw [Finset.mem_range] at hj
  cases hmt : mate (before cl r + l) j with
  | none => simp only [nbrs, hmt, Option.map_none]
  | some i' =>
      obtain ⟨p1, p2, p3, p4⟩ := mate_place hD hN hM hx hl hj hmt
      have hn : nbrs F E mate cpl x (before cl r + l) j = some (loc x i', cpl (F (before cl r + l) j) (!firstSide E F (before cl r + l) j)) := by
        simp only [nbrs, hmt, Option.map_some]
      rw [hn]
      simp only
      congr 1
      rw [p3]
      refine propext (and_congr_right fun _ => ?_)
      constructor
      · intro h j' hj' hlt hc
        exact h j' hj' hlt (cpl (F (before cl r + l) j') (!firstSide E F (before cl r + l) j')) (by simp only [nbrs, hc, Option.map_some])
      · intro h j' hj' hlt c hc
        obtain ⟨i2, hmt2, h2, _⟩ := hplace j' hj' _ c hc
        have q1 := (mate_place hD hN hM hx hl hj' hmt2).1
        rw [h2] at q1
        rw [is_inj hH q1 p1] at hmt2
        exact h j' hj' hlt hmt2

/-- what enters from other ranks -/
theorem ghostRhs_rank (hD : Distributed per cl nl G gc ranks) (hN : Numbered per cl nl G ranks outs F) (hE : Orient per cl G ranks outs F E)
    (hM : Mates per G F mate) (hG : Given cl ranks outs rs D cpl b) {X : Nat → Fin m → K} (hX : Has cl ranks rs X) {r : Nat} {x : RankIn} {s : Rk m K}
    (hx : ranks[r]? = some x) (hs : rs[r]? = some s) :
    ∃ c, ghostRhs s.sys s.rhs s.x = .ok c ∧ ∀ l < x.nOwn, c.getD l 0 = b (before cl r + l) -
      offIf G F (firstSide E F) mate cpl (before cl r + l) (fun i' => ¬ Owns cl r i') X := by
  have hH := hD.holds r x hx
  obtain ⟨hn, _⟩ := hG.own r x s hx hs
  obtain ⟨hlx, _⟩ := hG.lens r x s hx hs
  obtain ⟨c, e1, e2, e3⟩ := N2C.forRanks_all (fun _ iCell => do
    let row ← idx s.sys.c2f iCell
    let b ← idx s.rhs iCell
    rowLoop s.sys (fun o => decide (o ≠ iCell ∧ o ≥ s.sys.n)) iCell s.x row b) (fun l _ v => v = b (before cl r + l) -
      offIf G F (firstSide E F) mate cpl (before cl r + l) (fun i' => ¬ Owns cl r i') X) (List.range s.sys.n) (by
      intro k l hk
      obtain ⟨hk1, hk2⟩ := List.getElem?_eq_some_iff.1 hk
      simp only [List.length_range] at hk1
      simp only [List.getElem_range] at hk2
      subst hk2
      have hl : k < x.nOwn := by omega
      obtain ⟨row, hr1, hr2⟩ := rank_row hD hN hE hM hG hx hs hl
      simp only [(idx_ok_iff _ _ _).2 hr1, (idx_ok_iff _ _ _).2 (rank_rhs hD hG hx hs hl), Res.ok_bind, hr2 _ _ _ hlx]
      refine ⟨_, rfl, ?_⟩
      congr 1
      apply rowSum_eq
      intro j hj i' hmt
      obtain ⟨p1, p2, p3, _⟩ := mate_place hD hN hM hx hl hj hmt
      refine ⟨?_, fun _ => by rw [List.getD_eq_getElem?_getD, hX r x s i' _ hx hs p1]; rfl⟩
      rw [← p3, decide_eq_true_iff, hn]
      omega)
  refine ⟨c, e1, fun l hl => ?_⟩
  have hg := List.getElem?_eq_getElem (l := c) (i := l) (by rw [e2, List.length_range]; omega)
  rw [List.getD_eq_getElem?_getD, hg, Option.getD_some]
  exact e3 l l _ (by rw [List.getElem?_range (by omega)]) hg

/-- `LUSGSMatrixSolveJacobianLU` on one rank -/
theorem luSolve_rank (hD : Distributed per cl nl G gc ranks) (hN : Numbered per cl nl G ranks outs F) (hE : Orient per cl G ranks outs F E)
    (hM : Mates per G F mate) (hG : Given cl ranks outs rs D cpl b) {X : Nat → Fin m → K} (hX : Has cl ranks rs X) {r : Nat} {x : RankIn} {s : Rk m K}
    (hx : ranks[r]? = some x) (hs : rs[r]? = some s) {L : LUStruct} (hn : L.n = x.nOwn) {B' : Blocks (Matrix (Fin m) (Fin m) K)}
    {P : Nat → Nat → Matrix (Fin m) (Fin m) K}
    (hP : ∀ c r0 : Nat → Fin m → K, ∃ y, solve L B' c r0 = .ok y ∧ ∀ l < L.n, (∑ o ∈ Finset.range L.n, P l o • y o) = c l) :
    ∃ u d, luSolve s.sys L B' s.rhs s.x s.tmp = .ok (u, d, ∑ l ∈ Finset.range x.nOwn, fun k => |X (before cl r + l) k - u.getD l 0 k|) ∧
      u.length = x.cells.length ∧ d.length = x.cells.length ∧ ∀ l < x.nOwn, (∑ o ∈ Finset.range x.nOwn, P l o • u.getD o 0) = b (before cl r + l) -
        offIf G F (firstSide E F) mate cpl (before cl r + l) (fun i' => ¬ Owns cl r i') X := by
  have hH := hD.holds r x hx
  obtain ⟨hsn, _⟩ := hG.own r x s hx hs
  obtain ⟨hlx, hlt⟩ := hG.lens r x s hx hs
  have hle := nOwn_le hH
  obtain ⟨c, c1, c2⟩ := ghostRhs_rank hD hN hE hM hG hX hx hs
  obtain ⟨y, y1, y2⟩ := hP (fun i => c.getD i 0) (fun i => s.tmp.getD i 0)
  have hul : ((List.range s.sys.n).map y ++ s.tmp.drop s.sys.n).length = x.cells.length := by
    rw [List.length_append, List.length_map, List.length_range, List.length_drop, hlt, hsn]; omega
  have hug : ∀ l < x.nOwn, ((List.range s.sys.n).map y ++ s.tmp.drop s.sys.n)[l]? = some (y l) := by
    intro l hl
    rw [List.getElem?_append_left (by rw [List.length_map, List.length_range]; omega), List.getElem?_map, List.getElem?_range (by omega)]
    rfl
  have hugD : ∀ l < x.nOwn, ((List.range s.sys.n).map y ++ s.tmp.drop s.sys.n).getD l 0 = y l := by
    intro l hl
    rw [List.getD_eq_getElem?_getD, hug l hl]; rfl
  refine ⟨(List.range s.sys.n).map y ++ s.tmp.drop s.sys.n, List.zipWith (fun a b => a - b) s.x ((List.range s.sys.n).map y ++ s.tmp.drop s.sys.n), ?_, hul,
    by rw [List.length_zipWith, hul, hlx]; simp, ?_⟩
  · simp only [luSolve, c1, Res.ok_bind, y1]
    congr 3
    have : ((List.zipWith (fun a b => a - b) s.x ((List.range s.sys.n).map y ++ s.tmp.drop s.sys.n)).take s.sys.n).map (fun (v : Fin m → K) k => |v k|) =
        (List.range x.nOwn).map fun l k => |X (before cl r + l) k - ((List.range s.sys.n).map y ++ s.tmp.drop s.sys.n).getD l 0 k| := by
      apply List.ext_getElem?
      intro l
      by_cases hl : l < x.nOwn
      · rw [List.getElem?_map, List.getElem?_take_of_lt (by omega), List.getElem?_zipWith, hX r x s _ l hx hs (is_own_add hH hl).1, hug l hl, List.getElem?_map,
          List.getElem?_range hl]
        simp only [Option.map_some, hugD l hl]
        rfl
      · rw [List.getElem?_eq_none, List.getElem?_eq_none]
        · rw [List.length_map, List.length_range]; omega
        · rw [List.length_map, List.length_take]; omega
    rw [this, sum_range_list]
  · intro l hl
    rw [← c2 l hl, ← y2 l (by omega), hn]
    exact Finset.sum_congr rfl fun o ho => by rw [hugD o (Finset.mem_range.1 ho)]

end DNDSR.Sweep
