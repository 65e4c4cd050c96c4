import Verif.Proof.FluxSum
import Verif.Props.FacesGhost
import Mathlib.Algebra.BigOperators.Group.Finset.Sigma
import Mathlib.Algebra.Module.LinearMap.Defs
import Mathlib.Tactic.NormNum
import Mathlib.Data.Rat.Defs

/-!
# Summing face fluxes into cells (C75)

The flux through every face reaches the cells it separates, with opposite signs, whatever the distribution over ranks;
what is left of the sum over the whole mesh is the flux through its boundary.
-/

namespace DNDSR.Flux

open DNDSR.Elem DNDSR.IMap DNDSR.MeshAdj DNDSR.Faces

variable {K V : Type} [Field K] [AddCommGroup V] [Module K V]

variable {per : Bool} {cl nl : List Nat} {G : List Cell} {gc : GOM} {ranks : List RankIn} {outs : List RankOut}
  {ds : List (Fields K V)} {vol : Nat → K} {flux : Int → V} {zone : Int → Int}

theorem numbered_of {srt : Sorter} (hs : Sorts srt) (hD : Distributed per cl nl G gc ranks) (hI : interpolate per srt gc ranks = .ok outs) :
    ∃ F, Numbered per cl nl G ranks outs F := by
  obtain ⟨outs', F, h1, h2⟩ := faces_global per srt hs cl nl G gc ranks hD
  rw [hI] at h1
  have := Res.ok.inj h1
  subst this
  exact ⟨F, h2⟩

/-- `rhs_own` below, for a given numbering and orientation of the faces. -/
theorem rhs_oriented (fr : Frame V) {F : Nat → Nat → Int} {E : Int → Nat × Nat} (hD : Distributed per cl nl G gc ranks)
    (hN : Numbered per cl nl G ranks outs F) (hE : Orient per cl G ranks outs F E) (hA : Agree cl ranks outs ds vol flux zone) :
    ∃ s g, serialAll fr ds outs = .ok s ∧ gatherAll fr ds ranks outs = .ok g ∧
      OwnValues cl s (balance fr G F (firstSide E F) vol flux zone) ∧ OwnValues cl g (balance fr G F (firstSide E F) vol flux zone) := by
  have hlen : ds.length = outs.length := by rw [hA.size, hN.size]
  obtain ⟨s, es, ls, hs'⟩ := N2C.forRanks_all (fun _ (x : Fields K V × RankOut) => serial fr x.1 x.2)
    (fun r x rows => ∀ i : Nat, Owns cl r i → rows[((i : Int) - before cl r).toNat]? = some (balance fr G F (firstSide E F) vol flux zone i)) (ds.zip outs) (by
      rintro r ⟨d, o⟩ hdo
      obtain ⟨hd, ho⟩ := List.getElem?_zip_eq_some.1 hdo
      obtain ⟨x, hx⟩ := rank_of' hN ho
      obtain ⟨rows, e1, l1, h1⟩ := serial_spec fr d o (fun k f hf => fit hN hE hD hA hx ho hd hf)
      refine ⟨rows, e1, ?_⟩
      intro i hoi
      have hi : Is cl r x ((i : Int) - before cl r).toNat i := Or.inl ⟨hoi, by obtain ⟨_, h, _⟩ := hoi; omega⟩
      rw [h1 _ _ (hA.vols r x d i _ hx hd hi), sum_part fr hD hN hE hA hx ho hd hi hoi]
      rfl)
  obtain ⟨g, eg, lg, hg⟩ := N2C.forRanks_all (fun _ (x : (Fields K V × RankIn) × RankOut) => gather fr x.1.1 x.1.2.nOwn x.2)
    (fun r x rows => ∀ i : Nat, Owns cl r i → rows[((i : Int) - before cl r).toNat]? = some (balance fr G F (firstSide E F) vol flux zone i))
    ((ds.zip ranks).zip outs) (by
      rintro r ⟨⟨d, x⟩, o⟩ hdo
      obtain ⟨hdx, ho⟩ := List.getElem?_zip_eq_some.1 hdo
      obtain ⟨hd, hx⟩ := List.getElem?_zip_eq_some.1 hdx
      have hH := hD.holds r x hx
      have hown : ∀ {l : Nat}, l < x.nOwn → ∃ i : Nat, Is cl r x l i ∧ Owns cl r i := by
        intro l hl
        have hls : l < x.cells.length := by rw [hH.size]; simp only [RankIn.nOwn] at hl; omega
        obtain ⟨i, hi, _⟩ := is_of_lt hH hls
        exact ⟨i, hi, (is_own hH hi).1 hl⟩
      obtain ⟨own, e1, l1, h1⟩ := N2C.forRanks_all (fun l row => gatherRow fr d o.faces (l : Int) row 0)
        (fun l _ w => ∀ i : Nat, Is cl r x l i → w = balance fr G F (firstSide E F) vol flux zone i) (o.c2f.take x.nOwn) (by
          intro l row hrow
          have hl : l < x.nOwn := by
            have := (List.getElem?_eq_some_iff.1 hrow).1
            rw [List.length_take] at this; omega
          rw [List.getElem?_take_of_lt hl] at hrow
          obtain ⟨i, hi, hoi⟩ := hown hl
          have hG : ∃ C, G[i]? = some C := by
            have := (owns_range hoi).2
            exact ⟨_, List.getElem?_eq_getElem (by rw [hD.len]; omega)⟩
          obtain ⟨C, hC⟩ := hG
          have hw := hN.width r x o l i C row hx ho hi hC hrow
          rw [← nSides_eq hC] at hw
          refine ⟨_, gatherRow_spec fr d o.faces l (hA.vols r x d i l hx hd hi) row
            (fun j => if firstSide E F i j then flux (F i j) else turn fr (zone (F i j)) (-flux (F i j))) 0 ?_, ?_⟩
          · intro j e he acc
            have hj : j < nSides G i := by rw [← hw]; exact (List.getElem?_eq_some_iff.1 he).1
            obtain ⟨a, ha⟩ := isSlot_of (per := per) hj
            exact gatherStep_spec fr hD hN hE hA hx ho hd hi hoi ha ⟨row, hrow, he⟩ acc
          · intro i' hi'
            have := is_inj hH hi' hi
            subst this
            rw [zero_add, hw]; rfl)
      refine ⟨own ++ List.replicate (d.vol.length - x.nOwn) 0, by simp only [gather]; rw [e1]; rfl, ?_⟩
      intro i hoi
      have hi : Is cl r x ((i : Int) - before cl r).toNat i := Or.inl ⟨hoi, by obtain ⟨_, h, _⟩ := hoi; omega⟩
      have hl := (is_own hH hi).2 hoi
      -- the cell has a row
      have hrowl : ((i : Int) - before cl r).toNat < o.c2f.length := by
        rw [hN.rows r x o hx ho]; exact is_lt hH hi
      have hol : ((i : Int) - before cl r).toNat < own.length := by rw [l1, List.length_take]; omega
      rw [List.getElem?_append_left hol, List.getElem?_eq_getElem hol]
      have hrow := List.getElem?_eq_getElem (l := o.c2f.take x.nOwn) (i := ((i : Int) - before cl r).toNat) (by omega)
      rw [h1 _ _ _ hrow (List.getElem?_eq_getElem hol) i hi])
  have hcl : outs.length = cl.length := by rw [hN.size, hD.nranks]
  refine ⟨s, g, es, eg, ⟨by rw [ls, List.length_zip, hlen, hcl]; omega, ?_⟩,
    ⟨by rw [lg, List.length_zip, List.length_zip, hA.size, hD.nranks, hcl]; omega, ?_⟩⟩
  · intro r i row hoi hrow
    have hr : r < (ds.zip outs).length := by rw [← ls]; exact (List.getElem?_eq_some_iff.1 hrow).1
    exact hs' r _ row (List.getElem?_eq_getElem hr) hrow i hoi
  · intro r i row hoi hrow
    have hr : r < ((ds.zip ranks).zip outs).length := by rw [← lg]; exact (List.getElem?_eq_some_iff.1 hrow).1
    exact hg r _ row (List.getElem?_eq_getElem hr) hrow i hoi

/-- With the faces `InterpolateFace` builds, every own cell of every rank gets each of its faces exactly once, plus on the
first side and minus on the second, divided by its volume; the versions with and without OpenMP give the same. -/
theorem rhs_own (fr : Frame V) {srt : Sorter} (hs : Sorts srt) (hD : Distributed per cl nl G gc ranks)
    (hI : interpolate per srt gc ranks = .ok outs) (hA : Agree cl ranks outs ds vol flux zone) :
    ∃ F σ s g, Numbered per cl nl G ranks outs F ∧ Sides per G F σ ∧ serialAll fr ds outs = .ok s ∧ gatherAll fr ds ranks outs = .ok g ∧
      OwnValues cl s (balance fr G F σ vol flux zone) ∧ OwnValues cl g (balance fr G F σ vol flux zone) := by
  obtain ⟨F, hN⟩ := numbered_of hs hD hI
  obtain ⟨E, hE⟩ := orient_exists hD hN
  obtain ⟨s, g, h1, h2, h3, h4⟩ := rhs_oriented fr hD hN hE hA
  exact ⟨F, firstSide E F, s, g, hN, sides hD hN hE, h1, h2, h3, h4⟩

open Classical in
/-- The faces inside the mesh cancel: over all cells of all ranks, volume times right-hand side sums up to the flux through
the boundary.  This holds for every component the periodic boundaries do not turn; `π` picks the component. -/
theorem conserved (fr : Frame V) {srt : Sorter} (hs : Sorts srt) (hD : Distributed per cl nl G gc ranks)
    (hI : interpolate per srt gc ranks = .ok outs) (hA : Agree cl ranks outs ds vol flux zone) (hvol : ∀ i < G.length, vol i ≠ 0)
    {W : Type} [AddCommGroup W] [Module K W] (π : V →ₗ[K] W) (hπ : ∀ q u, π (turn fr (zone q) u) = π u) :
    ∃ F s g R, Numbered per cl nl G ranks outs F ∧ serialAll fr ds outs = .ok s ∧ gatherAll fr ds ranks outs = .ok g ∧ OwnValues cl s R ∧
      OwnValues cl g R ∧ ∑ i ∈ Finset.range G.length, vol i • π (R i) =
        ∑ i ∈ Finset.range G.length, ∑ j ∈ Finset.range (nSides G i), if Outer per G F i j then π (flux (F i j)) else 0 := by
  obtain ⟨F, σ, s, g, hN, hσ, es, eg, hs', hg⟩ := rhs_own fr hs hD hI hA
  refine ⟨F, s, g, _, hN, es, eg, hs', hg, ?_⟩
  have h1 : ∀ i ∈ Finset.range G.length, vol i • π (balance fr G F σ vol flux zone i) =
      ∑ j ∈ Finset.range (nSides G i), if σ i j then π (flux (F i j)) else -π (flux (F i j)) := by
    intro i hi
    rw [balance, map_smul, smul_smul, mul_inv_cancel₀ (hvol i (Finset.mem_range.1 hi)), one_smul, map_sum]
    refine Finset.sum_congr rfl fun j _ => ?_
    split <;> simp [hπ]
  rw [Finset.sum_congr rfl h1, ← sub_eq_zero]
  simp only [Finset.sum_sigma', ← Finset.sum_sub_distrib]
  -- the other side
  have hm : ∀ i j : Nat, ∃ p : Nat × Nat, (∃ a, IsSlot per G i j a) → if Outer per G F i j then p = (i, j) else
      (∃ b, IsSlot per G p.1 p.2 b) ∧ F p.1 p.2 = F i j ∧ p ≠ (i, j) := by
    intro i j
    by_cases ho : Outer per G F i j
    · exact ⟨(i, j), fun _ => by simp [ho]⟩
    · have ho' := ho
      simp only [Outer] at ho'
      push Not at ho'
      obtain ⟨i', j', b, hb, e, hne⟩ := ho'
      exact ⟨(i', j'), fun _ => by rw [if_neg ho]; exact ⟨⟨b, hb⟩, e, hne⟩⟩
  choose mate hmate using hm
  have hslot : ∀ {p : (_ : Nat) × Nat}, p ∈ (Finset.range G.length).sigma (fun i => Finset.range (nSides G i)) → ∃ a, IsSlot per G p.1 p.2 a := by
    intro p hp
    exact isSlot_of (Finset.mem_range.1 (Finset.mem_sigma.1 hp).2)
  have hmem : ∀ {i j : Nat} {a : Slot}, IsSlot per G i j a → (⟨i, j⟩ : (_ : Nat) × Nat) ∈ (Finset.range G.length).sigma (fun i => Finset.range (nSides G i)) := by
    intro i j a ha
    refine Finset.mem_sigma.2 ⟨Finset.mem_range.2 ?_, Finset.mem_range.2 (lt_of_isSlot ha)⟩
    obtain ⟨C, hC, _⟩ := ha
    exact (List.getElem?_eq_some_iff.1 hC).1
  refine Finset.sum_involution (fun p _ => ⟨(mate p.1 p.2).1, (mate p.1 p.2).2⟩) ?_ ?_ ?_ ?_
  · rintro ⟨i, j⟩ hp
    obtain ⟨a, ha⟩ := hslot hp
    have h := hmate i j ⟨a, ha⟩
    by_cases ho : Outer per G F i j
    · rw [if_pos ho] at h
      simp only [h, ho, hσ.outer i j a ha ho, if_true, sub_self, add_zero]
    · rw [if_neg ho] at h
      obtain ⟨⟨b, hb⟩, e, hne⟩ := h
      have ho' : ¬ Outer per G F (mate i j).1 (mate i j).2 := fun h => hne (h i j a ha e.symm).symm
      have := hσ.inner _ _ _ _ b a hb ha e hne
      simp only [ho, ho', if_false, sub_zero, e, this]
      cases σ i j <;> simp
  · rintro ⟨i, j⟩ hp hne
    obtain ⟨a, ha⟩ := hslot hp
    have h := hmate i j ⟨a, ha⟩
    by_cases ho : Outer per G F i j
    · simp only [ho, hσ.outer i j a ha ho, if_true, sub_self, ne_eq, not_true] at hne
    · rw [if_neg ho] at h
      intro e
      exact h.2.2 (by simpa [Prod.ext_iff] using e)
  · rintro ⟨i, j⟩ hp
    obtain ⟨a, ha⟩ := hslot hp
    have h := hmate i j ⟨a, ha⟩
    by_cases ho : Outer per G F i j
    · rw [if_pos ho] at h
      simp only [h]; exact hp
    · rw [if_neg ho] at h
      exact hmem h.1.choose_spec
  · rintro ⟨i, j⟩ hp
    obtain ⟨a, ha⟩ := hslot hp
    have h := hmate i j ⟨a, ha⟩
    by_cases ho : Outer per G F i j
    · rw [if_pos ho] at h
      simp only [h]
    · rw [if_neg ho] at h
      obtain ⟨⟨b, hb⟩, e, hne⟩ := h
      have ho' : ¬ Outer per G F (mate i j).1 (mate i j).2 := fun h => hne (h i j a ha e.symm).symm
      have h2 := hmate _ _ ⟨b, hb⟩
      rw [if_neg ho'] at h2
      obtain ⟨⟨c, hc⟩, e2, hne2⟩ := h2
      have := two_sides hD hN hb hc ha e2 e.symm hne2 (fun h => hne h.symm)
      simp only [Prod.mk.injEq] at this
      rw [Sigma.mk.injEq]
      exact ⟨this.1, heq_of_eq this.2⟩

/-- sums over ranks are sums over the global numbers -/
theorem sum_ranks : ∀ (lens : List Nat) (sums : List V) (w : Nat → V), sums.length = lens.length →
    (∀ (r n : Nat) (t : V), lens[r]? = some n → sums[r]? = some t → t = ∑ v ∈ Finset.range n, w (before lens r + v)) →
    sums.sum = ∑ q ∈ Finset.range lens.sum, w q := by
  intro lens
  induction lens with
  | nil => intro sums w hl _; rw [List.length_nil, List.length_eq_zero_iff] at hl; subst hl; simp
  | cons n lens ih =>
      intro sums w hl h
      match sums, hl with
      | t :: ts, hl =>
      have h0 := h 0 n t rfl rfl
      have h1 := ih ts (fun q => w (n + q)) (by simpa using hl) (fun r m u hm hu => by
        rw [h (r + 1) m u (by simpa using hm) (by simpa using hu)]
        simp [before, Nat.add_assoc])
      rw [List.sum_cons, List.sum_cons, h0, h1, Finset.sum_range_add]
      simp [before]

theorem wallLoop_spec (isWall : Int → Bool) (d : Fields K V) (nF : Nat) : ∀ (fs : List Face) (v0 : Nat) (acc : V),
    (∀ k < fs.length, ∃ φ z, d.flux[v0 + k]? = some φ ∧ d.zone[v0 + k]? = some z ∧ (isWall z = true → v0 + k < nF)) →
    wallLoop isWall d nF v0 fs acc =
      .ok (acc + ∑ k ∈ Finset.range fs.length, if isWall (d.zone[v0 + k]?.getD 0) then -(d.flux[v0 + k]?.getD 0) else 0) := by
  intro fs
  induction fs with
  | nil => intro v0 acc _; simp [wallLoop]
  | cons f fs ih =>
      intro v0 acc h
      obtain ⟨φ, z, h1, h2, h3⟩ := h 0 (by simp)
      rw [Nat.add_zero] at h1 h2 h3
      have h' : ∀ k < fs.length, ∃ φ z, d.flux[v0 + 1 + k]? = some φ ∧ d.zone[v0 + 1 + k]? = some z ∧ (isWall z = true → v0 + 1 + k < nF) := by
        intro k hk
        have := h (k + 1) (by simpa using hk)
        rwa [show v0 + (k + 1) = v0 + 1 + k by omega] at this
      rw [List.length_cons, Finset.sum_range_succ']
      have hsh : ∑ k ∈ Finset.range fs.length, (if isWall (d.zone[v0 + (k + 1)]?.getD 0) then -(d.flux[v0 + (k + 1)]?.getD 0) else 0) =
          ∑ k ∈ Finset.range fs.length, if isWall (d.zone[v0 + 1 + k]?.getD 0) then -(d.flux[v0 + 1 + k]?.getD 0) else 0 :=
        Finset.sum_congr rfl fun k _ => by rw [show v0 + (k + 1) = v0 + 1 + k by omega]
      rw [hsh]
      simp only [Nat.add_zero, h1, h2, Option.getD_some]
      simp only [wallLoop, (idx_ok_iff _ _ _).2 h1, (idx_ok_iff _ _ _).2 h2, Res.ok_bind]
      by_cases hw : isWall z = true
      · rw [if_pos hw, Res.assert_true _ (h3 hw)]
        simp only [Res.ok_bind]
        rw [ih (v0 + 1) (acc - φ) h', if_pos hw]
        congr 1; abel
      · rw [if_neg hw]
        rw [ih (v0 + 1) acc h', if_neg hw]
        congr 1; abel

/-- Every wall face of the mesh enters the wall sum exactly once, whatever rank holds it (walls are faces without a second
cell). -/
theorem wall_sum (isWall : Int → Bool) {srt : Sorter} (hs : Sorts srt) (hD : Distributed per cl nl G gc ranks)
    (hI : interpolate per srt gc ranks = .ok outs) (hA : Agree cl ranks outs ds vol flux zone)
    (hW : ∀ (r : Nat) (o : RankOut) (d : Fields K V) (v : Nat) (f : Face) (z : Int), outs[r]? = some o → ds[r]? = some d → o.faces[v]? = some f →
      d.zone[v]? = some z → isWall z = true → f.second = unInit) :
    wallSum isWall ds outs = .ok (-∑ q ∈ Finset.range (outs.map (·.nFaces)).sum, if isWall (zone q) then flux q else 0) := by
  obtain ⟨F, hN⟩ := numbered_of hs hD hI
  obtain ⟨E, hE⟩ := orient_exists hD hN
  have hlen : ds.length = outs.length := by rw [hA.size, hN.size]
  obtain ⟨sums, e1, l1, h1⟩ := N2C.forRanks_all (fun _ (x : Fields K V × RankOut) => wallLoop isWall x.1 x.2.nFaces 0 x.2.faces 0)
    (fun r x t => t = ∑ v ∈ Finset.range x.2.nFaces, if isWall (zone ((before (outs.map (·.nFaces)) r + v : Nat) : Int))
      then -flux ((before (outs.map (·.nFaces)) r + v : Nat) : Int) else 0) (ds.zip outs) (by
      rintro r ⟨d, o⟩ hdo
      obtain ⟨hd, ho⟩ := List.getElem?_zip_eq_some.1 hdo
      obtain ⟨x, hx⟩ := rank_of' hN ho
      have hFa := face_faithful hN ho
      have hsz : o.nFaces = o.faceMap.mainSize := by
        have h := hFa.size
        simp only [List.getElem?_map, ho, Option.map_some] at h
        exact Option.some.inj h
      have hfl := (hN.maps r o ho).2
      have hface : ∀ k < o.faces.length, ∃ q : Int, Global (outs.map (·.nFaces)) q ∧ FName outs r o q k ∧ d.flux[k]? = some (flux q) ∧
          d.zone[k]? = some (zone q) ∧ (isWall (zone q) = true → k < o.nFaces) := by
        intro k hk
        have hf := List.getElem?_eq_getElem hk
        obtain ⟨q, hq, hn⟩ := face_number hN hx ho hf
        obtain ⟨h2, h3⟩ := hA.faces r o d q k ho hd hn hq
        refine ⟨q, hq, hn, h2, h3, ?_⟩
        intro hw
        have hout := hW r o d k _ _ ho hd hf h3 hw
        obtain ⟨_, h5⟩ := hE.face r x o q k _ hx ho hq hn hf
        rcases h5 with ⟨_, h5, _⟩ | ⟨_, i', j', b, h6, _⟩
        · have hko : (k : Int) < o.faceMap.mainSize := (name_own hFa (by omega) hq.1 hn).2 h5
          rw [hsz]; exact_mod_cast hko
        · have := unInit_neg; omega
      refine ⟨_, wallLoop_spec isWall d o.nFaces o.faces 0 0 ?_, ?_⟩
      · intro k hk
        rw [Nat.zero_add]
        obtain ⟨q, _, _, h2, h3, h4⟩ := hface k hk
        exact ⟨_, _, h2, h3, h4⟩
      · rw [zero_add]
        simp only [Nat.zero_add]
        symm
        refine Finset.sum_subset_zero_on_sdiff (fun v hv => Finset.mem_range.2 (by have := Finset.mem_range.1 hv; omega)) ?_ ?_
        · intro v hv
          rw [Finset.mem_sdiff, Finset.mem_range, Finset.mem_range] at hv
          obtain ⟨q, _, _, h2, h3, h4⟩ := hface v hv.1
          rw [h2, h3, Option.getD_some, if_neg (fun h => hv.2 (h4 h))]
        · intro v hv
          have hv := Finset.mem_range.1 hv
          obtain ⟨q, hq, hn, h2, h3, _⟩ := hface v (by omega)
          have hown := (name_own hFa (by omega) hq.1 hn).1 (by rw [← hsz]; exact_mod_cast hv)
          have hqe : q = ((before (outs.map (·.nFaces)) r + v : Nat) : Int) := by
            rcases hn with ⟨_, e⟩ | ⟨h, _⟩ | ⟨h, _⟩
            · push_cast; omega
            · exact absurd hown h
            · exact absurd hown h
          rw [h2, h3, Option.getD_some, Option.getD_some, ← hqe])
  simp only [wallSum, e1, Res.ok_bind]
  congr 1
  rw [sum_ranks (outs.map (·.nFaces)) sums (fun q => if isWall (zone (q : Int)) then -flux (q : Int) else 0) (by rw [l1, List.length_zip, List.length_map]; omega) ?_]
  · rw [← Finset.sum_neg_distrib]
    refine Finset.sum_congr rfl fun q _ => ?_
    split <;> simp
  · intro r n t hn ht
    have hr : r < (ds.zip outs).length := by rw [← l1]; exact (List.getElem?_eq_some_iff.1 ht).1
    have hz := List.getElem?_eq_getElem hr
    rw [h1 r _ t hz ht]
    obtain ⟨_, ho⟩ := List.getElem?_zip_eq_some.1 hz
    rw [List.getElem?_map, ho] at hn
    have := Option.some.inj hn
    simp only [] at this
    rw [← this]

/-! ## The hypotheses can be met -/

/-- Volumes, fluxes and zones can be given to the ranks in any way that depends on the global numbers only. -/
theorem agree_exists (hD : Distributed per cl nl G gc ranks) {F : Nat → Nat → Int} (hN : Numbered per cl nl G ranks outs F) (vol : Nat → K)
    (flux : Int → V) (zone : Int → Int) : ∃ ds, Agree cl ranks outs ds vol flux zone := by
  let mk : RankIn → RankOut → Fields K V := fun x o => ⟨(List.range x.cells.length).map fun l : Nat => vol (numberOf x.cellMap (l : Int)).toNat,
    (List.range o.faces.length).map fun v : Nat => flux (numberOf o.faceMap (v : Int)), (List.range o.faces.length).map fun v : Nat => zone (numberOf o.faceMap (v : Int))⟩
  have hget : ∀ {r : Nat} {d : Fields K V}, (List.zipWith mk ranks outs)[r]? = some d →
      ∃ x o, ranks[r]? = some x ∧ outs[r]? = some o ∧ d = mk x o := by
    intro r d h
    rw [List.getElem?_zipWith] at h
    cases hx : ranks[r]? with
    | none => simp [hx] at h
    | some x =>
        cases ho : outs[r]? with
        | none => simp [hx, ho] at h
        | some o =>
            simp only [hx, ho, Option.some.injEq] at h
            exact ⟨x, o, rfl, rfl, h.symm⟩
  refine ⟨List.zipWith mk ranks outs, ⟨by rw [List.length_zipWith, hN.size, Nat.min_self], ?_, ?_, ?_⟩⟩
  · intro r x d hx hd
    obtain ⟨x', o, hx', ho, rfl⟩ := hget hd
    rw [hx] at hx'; cases hx'
    simp [mk]
  · intro r x d i l hx hd hi
    obtain ⟨x', o, hx', ho, rfl⟩ := hget hd
    rw [hx] at hx'; cases hx'
    have hH := hD.holds r x hx
    simp only [mk, List.getElem?_map, List.getElem?_range (is_lt hH hi), Option.map_some, number_is hH hi, Int.toNat_natCast]
  · intro r o d q v ho hd hn hq
    obtain ⟨x, o', hx, ho', rfl⟩ := hget hd
    rw [ho] at ho'; cases ho'
    have hlt := face_lt hN ho (by omega) hn hq.1
    rw [Int.toNat_natCast] at hlt
    simp only [mk, List.getElem?_map, List.getElem?_range hlt, Option.map_some, numberOf_eq (face_faithful hN ho) hq.1 (by omega) hn, and_self]

open Classical in
/-- two quadrilaterals on two ranks, joined by one face, all the others walls: `conserved` and `wall_sum` apply to any fluxes -/
example (per : Bool) (srt : Sorter) (hs : Sorts srt) (fr : Frame V) (hfr : fr.periodic = false) (vol : Nat → K) (hvol : ∀ i, vol i ≠ 0) (flux : Int → V) :
    ∃ gc ranks outs ds F s g R zone, interpolate per srt gc ranks = .ok outs ∧ Agree [1, 1] ranks outs ds vol flux zone ∧
      Numbered per [1, 1] [4, 2] TwoQuads.mesh ranks outs F ∧ serialAll fr ds outs = .ok s ∧ gatherAll fr ds ranks outs = .ok g ∧
      OwnValues [1, 1] s R ∧ OwnValues [1, 1] g R ∧ wallSum (fun z => z == 1) ds outs = .ok (-∑ q ∈ Finset.range (outs.map (·.nFaces)).sum,
        if ∃ (i j : Nat) (a : Slot), IsSlot per TwoQuads.mesh i j a ∧ F i j = q ∧ Outer per TwoQuads.mesh F i j then flux q else 0) := by
  obtain ⟨gc, ranks, hD, _⟩ := TwoQuads.exists_ranks per
  obtain ⟨outs, F, hI, hN⟩ := faces_global per srt hs _ _ _ _ _ hD
  obtain ⟨E, hE⟩ := orient_exists hD hN
  obtain ⟨ds, hA⟩ := agree_exists hD hN vol flux
    (fun q => if ∃ (i j : Nat) (a : Slot), IsSlot per TwoQuads.mesh i j a ∧ F i j = q ∧ Outer per TwoQuads.mesh F i j then 1 else 0)
  obtain ⟨_, s, g, R, _, h2, h3, h4, h5, _⟩ := conserved fr hs hD hI hA (fun i _ => hvol i) LinearMap.id (fun q u => by simp [turn, hfr])
  have hw := wall_sum (fun z => z == 1) hs hD hI hA (by
    intro r o d v f z ho hd hf hz hwz
    obtain ⟨x, hx⟩ := rank_of' hN ho
    obtain ⟨q, hq, hn⟩ := face_number hN hx ho hf
    have hz' := (hA.faces r o d q v ho hd hn hq).2
    rw [hz] at hz'
    have hz' := Option.some.inj hz'
    rw [hz'] at hwz
    by_cases hex : ∃ (i j : Nat) (a : Slot), IsSlot per TwoQuads.mesh i j a ∧ F i j = q ∧ Outer per TwoQuads.mesh F i j
    · obtain ⟨i, j, a, ha, e, hout⟩ := hex
      obtain ⟨_, h⟩ := hE.face r x o q v f hx ho hq hn hf
      rcases h with ⟨h, _⟩ | ⟨_, i', j', b, _, _, hb, hne, h⟩
      · exact h
      · obtain ⟨h6, c, hc⟩ := hE.slot q hq
        have h7 := hout i' j' b hb (by rw [h, e])
        have h8 := hout _ _ c hc (by rw [h6, e])
        exact absurd (h7.trans h8.symm) hne
    · rw [if_neg hex] at hwz
      simp at hwz)
  refine ⟨gc, ranks, outs, ds, F, s, g, R, _, hI, hA, hN, h2, h3, h4, h5, ?_⟩
  rw [hw]
  congr 2
  refine Finset.sum_congr rfl fun q _ => ?_
  by_cases hex : ∃ (i j : Nat) (a : Slot), IsSlot per TwoQuads.mesh i j a ∧ F i j = q ∧ Outer per TwoQuads.mesh F i j <;> simp [hex]

/-! ## A cell next to itself -/

namespace Alone

/-- a periodic direction one cell thick: both sides of the face are cell 0 -/
def out : RankOut := ⟨[⟨⟨.line2, [0, 1], []⟩, 0, 0⟩], 1, [[0, 0]], ⟨0, 1, [], [], [], [], [], []⟩⟩
def fields : Fields ℚ ℚ := ⟨[1], [1], [-1]⟩
def frame : Frame ℚ := ⟨true, fun _ u => u, fun _ u => u⟩

end Alone

/-- If a cell is on both sides of a face the version without OpenMP cancels the flux, but the one with OpenMP takes the cell
for the first side both times and adds the flux twice. -/
theorem gather_self_adjacent : serial Alone.frame Alone.fields Alone.out = .ok [0] ∧ gather Alone.frame Alone.fields 1 Alone.out = .ok [2] := by
  constructor
  · simp [serial, faceLoop, faceStep, addTo, Alone.frame, Alone.fields, Alone.out, at64, idx, Res.ok_bind, unInit, fromFace2Cell, isPeriodic, isMain, isDonor]
  · simp [gather, gatherRow, gatherStep, forRanks, cellIsFaceBack, Alone.frame, Alone.fields, Alone.out, at64, idx, Res.ok_bind, unInit, fromFace2Cell, isPeriodic, isMain,
      isDonor]
    norm_num

end DNDSR.Flux
