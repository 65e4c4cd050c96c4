import Verif.Spec.SmoothDt
import Verif.Proof.SweepsAll
import Verif.Proof.TimeStepPos

/-! Helper lemmas for `Verif.Props.SmoothDt`. -/

namespace DNDSR.Dt

open DNDSR.Elem DNDSR.IMap DNDSR.MeshAdj DNDSR.Faces
open DNDSR.Flux (nSides at64_ok firstSide isSlot_of lt_of_isSlot nSides_eq OwnValues)
open DNDSR.Sweep (Mates own_index row_of mate_is mate_place own_of_lt nOwn_le is_own_add loc loc_eq)

variable {per : Bool} {cl nl : List Nat} {G : List Cell} {gc : GOM} {ranks : List RankIn} {outs : List RankOut} {F : Nat → Nat → Int}
  {E : Int → Nat × Nat} {mate : Nat → Nat → Option Nat}

/-- what the loop meets at face `j` of cell `l` -/
def Meets (faces : List Face) (l : Nat) (row : List Int) (nbr : Nat → Option Nat) (dt : List ℝ) (t : Nat → ℝ) : Prop :=
  ∀ (j : Nat) (e : Int), row[j]? = some e → ∃ f, at64 faces e = .ok f ∧ (f.first = (l : Int) ∨ f.second = (l : Int)) ∧
    ((nbr j = none ∧ (if f.first = (l : Int) then f.second else f.first) = unInit) ∨
      ∃ (i' o : Nat), nbr j = some i' ∧ (if f.first = (l : Int) then f.second else f.first) = (o : Int) ∧ dt[o]? = some (t i'))

theorem adjLoop_spec (faces : List Face) (l : Nat) (dt : List ℝ) (t : Nat → ℝ) : ∀ (row : List Int) (nbr : Nat → Option Nat) (a : ℝ × ℝ), Meets faces l row nbr dt t →
    adjLoop faces l dt row a = .ok (a.1 + ((Finset.range row.length).filter fun j => (nbr j).isSome).card,
      a.2 + ∑ j ∈ Finset.range row.length, match nbr j with | none => 0 | some i' => t i') := by
  intro row
  induction row with
  | nil => intro nbr a _; simp [adjLoop]
  | cons e es ih =>
    intro nbr a h
    have htail : Meets faces l es (fun j => nbr (j + 1)) dt t := fun j e he => h (j + 1) e (by simpa using he)
    obtain ⟨f, h1, h2, h3⟩ := h 0 e rfl
    have hsum : ∀ g : Nat → ℝ, ∑ j ∈ Finset.range (e :: es).length, g j = g 0 + ∑ j ∈ Finset.range es.length, g (j + 1) := by
      intro g
      rw [List.length_cons, Finset.sum_range_succ', add_comm]
    have hcard : ∀ (p : Nat → Bool) (n : Nat), (((Finset.range n).filter fun j => p j = true).card : ℝ) = ∑ j ∈ Finset.range n, if p j = true then (1 : ℝ) else 0 := by
      intro p n
      rw [Finset.sum_boole]
    rw [hsum, hcard, hsum]
    simp only [adjLoop, h1, Res.ok_bind, Res.assert_true _ h2]
    rcases h3 with ⟨h3, h4⟩ | ⟨i', o, h3, h4, h5⟩
    · rw [h4, if_neg (by simp), ih _ _ htail, hcard, h3]
      simp
    · have ho : (o : Int) ≠ unInit := by simp only [unInit]; omega
      rw [h4, if_pos ho, at64_ok h5, Res.ok_bind, ih _ _ htail, hcard, h3]
      simp only [Option.isSome_some, if_true, Res.ok.injEq, Prod.mk.injEq]
      constructor <;> ring

theorem meets (hD : Distributed per cl nl G gc ranks) (hN : Numbered per cl nl G ranks outs F) (hE : Orient per cl G ranks outs F E) (hM : Mates per G F mate)
    {r : Nat} {x : RankIn} {o : RankOut} (hx : ranks[r]? = some x) (ho : outs[r]? = some o) {l i : Nat} (hi : Is cl r x l i) (hoi : Owns cl r i) {row : List Int}
    (hrow : o.c2f[l]? = some row) (hlen : row.length = nSides G i) {dt : List ℝ} {t : Nat → ℝ} (hdt : ∀ l i : Nat, Is cl r x l i → dt[l]? = some (t i)) :
    Meets o.faces l row (mate i) dt t := by
  have hH := hD.holds r x hx
  intro j e he
  have hj : j < nSides G i := by rw [← hlen]; exact (List.getElem?_eq_some_iff.1 he).1
  obtain ⟨a, ha⟩ := isSlot_of (per := per) hj
  obtain ⟨v, f, h1, hn, hf⟩ := own_face hN hx ho hi hoi ha
  have : e = (v : Int) := gives_unique ⟨row, hrow, he⟩ h1
  subst this
  have hq := hN.range i j a ha
  obtain ⟨⟨l1, e1, h4⟩, h5⟩ := hE.face r x o _ _ f hx ho hq hn hf
  obtain ⟨hs1, c, hc⟩ := hE.slot _ hq
  refine ⟨f, at64_ok hf, ?_⟩
  by_cases hfs : E (F i j) = (i, j)
  · have hll : l1 = l := by rw [hfs] at h4; exact is_unique hH h4 hi
    subst hll
    refine ⟨Or.inl e1, ?_⟩
    rcases h5 with ⟨h5, _, h6⟩ | ⟨l', i', j', b', e', h6, hb, hne', h7⟩
    · left
      refine ⟨?_, by rw [if_pos e1, h5]⟩
      cases hmt : mate i j with
      | none => rfl
      | some i' =>
          obtain ⟨j', b', hb', e', hne⟩ := (hM i j a ha i').1 hmt
          exact absurd (h6 i' j' b' hb' e') (by rw [hfs]; exact hne)
    · right
      exact ⟨i', l', (hM i j a ha i').2 ⟨j', b', hb, h7, by rw [hfs] at hne'; exact hne'⟩, by rw [if_pos e1, e'], hdt _ _ h6⟩
  · have hne : l1 ≠ l := by
      rintro rfl
      have := is_inj hH h4 hi
      refine hfs ?_
      have h6 : (E (F i j)).2 = j := by
        rw [this] at hc hs1
        exact slots_apart hD hc ha ((hN.iff i _ i j c a hc ha).1 hs1)
      exact Prod.ext this h6
    have hne' : ¬ (f.first = (l : Int)) := by rw [e1]; omega
    refine ⟨Or.inr ?_, Or.inr ⟨(E (F i j)).1, l1, (hM i j a ha _).2 ⟨_, c, hc, hs1, hfs⟩, by rw [if_neg hne', e1], hdt _ _ h4⟩⟩
    rcases h5 with ⟨_, _, h6⟩ | ⟨l', i', j', b', e', h6, hb, hne', h7⟩
    · exact absurd (h6 i j a ha rfl).symm hfs
    · have hij : (i', j') = (i, j) := by
        by_contra hcon
        have := two_sides hD hN hc hb ha (h7.trans hs1.symm) hs1.symm hne' (fun h => hfs h.symm)
        exact hcon this
      cases hij
      rw [e', is_unique hH h6 hi]

/-- what the whole-mesh pass is in terms of the sums of the loop -/
theorem smoothed_eq (t : Nat → ℝ) (i : Nat) :
    smoothed (t i) ((Finset.range (nSides G i)).filter fun j => (mate i j).isSome).card (∑ j ∈ Finset.range (nSides G i), match mate i j with | none => 0 | some i' => t i') =
      smoothStep G mate t i := by
  have hs : ∑ j ∈ Finset.range (nSides G i), (match mate i j with | none => (0 : ℝ) | some i' => t i') = ∑ j ∈ inner G mate i, t (across mate i j) := by
    rw [inner, Finset.sum_filter]
    refine Finset.sum_congr rfl fun j _ => ?_
    unfold across
    cases mate i j <;> simp
  rw [hs]
  change smoothed (t i) (inner G mate i).card _ = _
  unfold smoothed smoothStep faceMean
  by_cases h : inner G mate i = ∅
  · rw [if_pos h, if_pos (by rw [h]; simp)]
  · have hc : ((inner G mate i).card : ℝ) ≠ 0 := by
      simpa using h
    rw [if_neg h, if_neg hc]
    congr 1
    rw [← Finset.sum_div, Finset.sum_add_distrib, Finset.sum_const, nsmul_eq_mul]
    field_simp
    ring

/-- the ranks hold the steps `t` of their own cells -/
structure Has (cl : List Nat) (ranks : List RankIn) (dts : List (List ℝ)) (t : Nat → ℝ) : Prop where
  size : dts.length = ranks.length
  lens : ∀ (r : Nat) (x : RankIn) (dt : List ℝ), ranks[r]? = some x → dts[r]? = some dt → dt.length = x.cells.length
  own : ∀ (r i : Nat) (dt : List ℝ), Owns cl r i → dts[r]? = some dt → dt[((i : Int) - before cl r).toNat]? = some (t i)

theorem pull_spec (hD : Distributed per cl nl G gc ranks) {dts : List (List ℝ)} {t : Nat → ℝ} (h : Has cl ranks dts t) :
    ∃ res, pullDTau gc ranks dts = .ok res ∧ res.length = ranks.length ∧ ∀ (r : Nat) (x : RankIn) (dt : List ℝ), ranks[r]? = some x → res[r]? = some dt →
      ∀ l i : Nat, Is cl r x l i → dt[l]? = some (t i) := by
  obtain ⟨res, e1, l1, h1⟩ := N2C.forRanks_all (fun _ (s : RankIn × List ℝ) => do
    let g ← forRanks (fun _ q => do
      let p ← gc.search q
      match p with
      | none => .abort
      | some p => do
        let t ← idx dts p.1
        at64 t p.2) 0 s.1.cellMap.ghostIndex
    .ok (s.2.take s.1.nOwn ++ g))
    (fun r s dt => ∀ l i : Nat, Is cl r s.1 l i → dt[l]? = some (t i)) (ranks.zip dts) (by
    rintro r ⟨x, dt⟩ hs
    obtain ⟨hx, hdt⟩ := List.getElem?_zip_eq_some.1 hs
    replace hx : ranks[r]? = some x := hx
    replace hdt : dts[r]? = some dt := hdt
    have hH := hD.holds r _ hx
    have hlx := h.lens r x dt hx hdt
    obtain ⟨g, eg, lg, hg⟩ := N2C.forRanks_all (fun _ q => do
      let p ← gc.search q
      match p with
      | none => .abort
      | some p => do
        let t ← idx dts p.1
        at64 t p.2) (fun _ q v => v = t q.toNat) x.cellMap.ghostIndex (by
      intro k q hq
      have hlt := (List.getElem?_eq_some_iff.1 hq).1
      obtain ⟨i, hi, hgl⟩ := is_of_lt hH (l := x.nOwn + k) (by rw [hH.size]; simp only [RankIn.nOwn]; omega)
      have hno : ¬ Owns cl r i := fun h => by have := (is_own hH hi).2 h; omega
      have hqi : q = (i : Int) := by
        rcases hi with ⟨h, _⟩ | ⟨_, k', hk', n, hsz, e⟩ | ⟨_, _, e⟩
        · exact absurd h hno
        · rw [hH.cellMap.faithful.size] at hsz
          have := Option.some.inj hsz
          have : k' = k := by simp only [RankIn.nOwn] at e; omega
          subst this
          rw [hq] at hk'; exact Option.some.inj hk'
        · omega
      subst hqi
      obtain ⟨ρ, hρ⟩ := owns_exists hgl.1 hgl.2
      rw [search_of_owns hD.built hρ]
      simp only [Res.ok_bind]
      have hρl : ρ < dts.length := by rw [h.size, hD.nranks]; exact hρ.1
      have ht := List.getElem?_eq_getElem hρl
      rw [(idx_ok_iff _ _ _).2 ht]
      simp only [Res.ok_bind]
      have := h.own ρ i _ hρ ht
      refine ⟨t i, ?_, by rw [Int.toNat_natCast]⟩
      have hge : (0 : Int) ≤ (i : Int) - before cl ρ := by obtain ⟨_, h, _⟩ := hρ; omega
      simp only [at64, if_pos hge]
      exact (idx_ok_iff _ _ _).2 this)
    refine ⟨_, by simp only [eg, Res.ok_bind]; rfl, ?_⟩
    have htl : (dt.take x.nOwn).length = x.nOwn := by
      rw [List.length_take, hlx]
      have := nOwn_le hH
      omega
    intro l i hi
    have hi : Is cl r x l i := hi
    by_cases hoi : Owns cl r i
    · have hl := (is_own hH hi).2 hoi
      rw [List.getElem?_append_left (by omega), List.getElem?_take_of_lt hl]
      have := h.own r i dt hoi hdt
      rwa [is_unique hH (own_index hH hoi).1 hi] at this
    · have hl : ¬ l < x.nOwn := fun h => hoi ((is_own hH hi).1 h)
      rw [List.getElem?_append_right (by omega), htl]
      have hlt := is_lt hH hi
      have hk : l - x.nOwn < g.length := by rw [lg]; rw [hH.size] at hlt; simp only [RankIn.nOwn] at hl ⊢; omega
      have hge := List.getElem?_eq_getElem hk
      have hgi : x.cellMap.ghostIndex[l - x.nOwn]? = some (i : Int) := by
        rcases hi with ⟨h, _⟩ | ⟨_, k', hk', n, hsz, e⟩ | ⟨_, _, e⟩
        · exact absurd h hoi
        · rw [hH.cellMap.faithful.size] at hsz
          have := Option.some.inj hsz
          have : k' = l - x.nOwn := by simp only [RankIn.nOwn] at e ⊢; omega
          subst this
          exact hk'
        · omega
      rw [hge, hg _ _ _ hgi hge, Int.toNat_natCast])
  refine ⟨res, e1, by rw [l1, List.length_zip, h.size]; omega, ?_⟩
  intro r x dt hx hdt
  have hd : r < dts.length := by rw [h.size]; exact (List.getElem?_eq_some_iff.1 hx).1
  have hz : (ranks.zip dts)[r]? = some (x, dts[r]) := List.getElem?_zip_eq_some.2 ⟨hx, List.getElem?_eq_getElem hd⟩
  exact h1 r _ _ hz hdt

theorem pass_spec (hD : Distributed per cl nl G gc ranks) (hN : Numbered per cl nl G ranks outs F) (hE : Orient per cl G ranks outs F E) (hM : Mates per G F mate)
    {dts : List (List ℝ)} {t : Nat → ℝ} (h : Has cl ranks dts t) :
    ∃ res, smoothPass gc ranks outs dts = .ok res ∧ Has cl ranks res (smoothStep G mate t) ∧
      ∀ (r : Nat) (x : RankIn) (a b : List ℝ), ranks[r]? = some x → dts[r]? = some a → res[r]? = some b → b.drop x.nOwn = a.drop x.nOwn := by
  obtain ⟨pulled, e0, l0, h0⟩ := pull_spec hD h
  have hlo : outs.length = ranks.length := hN.size
  obtain ⟨res, e1, l1, h1⟩ := N2C.forRanks_all (fun _ (s : ((RankIn × RankOut) × List ℝ) × List ℝ) => minSmoothDTau s.1.1.1.nOwn s.1.1.2 s.1.2 s.2)
    (fun r s b => b.length = s.1.1.1.cells.length ∧ b.drop s.1.1.1.nOwn = s.2.drop s.1.1.1.nOwn ∧
      ∀ i : Nat, Owns cl r i → b[((i : Int) - before cl r).toNat]? = some (smoothStep G mate t i)) (((ranks.zip outs).zip pulled).zip dts) (by
    rintro r ⟨⟨⟨x, o⟩, p⟩, dt⟩ hs
    obtain ⟨hs, hdt⟩ := List.getElem?_zip_eq_some.1 hs
    obtain ⟨hs, hp⟩ := List.getElem?_zip_eq_some.1 hs
    obtain ⟨hx, ho⟩ := List.getElem?_zip_eq_some.1 hs
    replace hx : ranks[r]? = some x := hx
    replace ho : outs[r]? = some o := ho
    replace hp : pulled[r]? = some p := hp
    replace hdt : dts[r]? = some dt := hdt
    have hH := hD.holds r x hx
    have hno := nOwn_le hH
    have hlen := h.lens r x dt hx hdt
    obtain ⟨own, e2, l2, h2⟩ := N2C.forRanks_all (fun _ iCell => do
      let row ← idx o.c2f iCell
      let a ← adjLoop o.faces iCell p row (0, 0)
      let v ← idx p iCell
      .ok (smoothed v a.1 a.2)) (fun l _ v => v = smoothStep G mate t (before cl r + l)) (List.range x.nOwn) (by
        intro k l hk
        obtain ⟨hk1, hk2⟩ := List.getElem?_eq_some_iff.1 hk
        simp only [List.length_range] at hk1
        simp only [List.getElem_range] at hk2
        subst hk2
        obtain ⟨hi, hoi⟩ := is_own_add hH hk1
        obtain ⟨row, r1, r2⟩ := row_of hD hN hx ho hi hoi
        refine ⟨_, ?_, rfl⟩
        simp only [(idx_ok_iff _ _ _).2 r1, Res.ok_bind]
        rw [adjLoop_spec o.faces k p t row (mate (before cl r + k)) (0, 0) (meets hD hN hE hM hx ho hi hoi r1 r2 (h0 r x p hx hp)), Res.ok_bind,
          (idx_ok_iff _ _ _).2 (h0 r x p hx hp _ _ hi), Res.ok_bind, zero_add, zero_add, r2, smoothed_eq])
    rw [List.length_range] at l2
    refine ⟨own ++ dt.drop x.nOwn, by simp only [minSmoothDTau, e2, Res.ok_bind], ?_, ?_, ?_⟩
    · rw [List.length_append, l2, List.length_drop, hlen]
      show _ = x.cells.length
      omega
    · show (own ++ dt.drop x.nOwn).drop x.nOwn = dt.drop x.nOwn
      rw [List.drop_append_of_le_length (by omega), List.drop_of_length_le (by omega), List.nil_append]
    · intro i hoi
      obtain ⟨_, hl⟩ := own_index hH hoi
      rw [List.getElem?_append_left (by omega)]
      have hg := List.getElem?_eq_getElem (by omega : ((i : Int) - before cl r).toNat < own.length)
      rw [hg, h2 _ _ _ (by rw [List.getElem?_range hl]) hg]
      have : before cl r + ((i : Int) - before cl r).toNat = i := by obtain ⟨_, h, _⟩ := hoi; omega
      rw [this])
  have hget : ∀ {r : Nat} {x : RankIn} {b : List ℝ}, ranks[r]? = some x → res[r]? = some b → ∃ o p dt, outs[r]? = some o ∧ dts[r]? = some dt ∧
      (((ranks.zip outs).zip pulled).zip dts)[r]? = some (((x, o), p), dt) := by
    intro r x b hx hb
    have hr := (List.getElem?_eq_some_iff.1 hx).1
    have ho := List.getElem?_eq_getElem (by omega : r < outs.length)
    have hp := List.getElem?_eq_getElem (by omega : r < pulled.length)
    have hd := List.getElem?_eq_getElem (by rw [h.size]; omega : r < dts.length)
    refine ⟨_, pulled[r], _, ho, hd, ?_⟩
    have z1 : (ranks.zip outs)[r]? = some (x, outs[r]) := List.getElem?_zip_eq_some.2 ⟨hx, ho⟩
    have z2 : ((ranks.zip outs).zip pulled)[r]? = some ((x, outs[r]), pulled[r]) := List.getElem?_zip_eq_some.2 ⟨z1, hp⟩
    exact List.getElem?_zip_eq_some.2 ⟨z2, hd⟩
  have hl : res.length = ranks.length := by
    rw [l1, List.length_zip, List.length_zip, List.length_zip, h.size, l0, hlo]; omega
  refine ⟨res, by rw [smoothPass, e0, Res.ok_bind, e1], ⟨hl, ?_, ?_⟩, ?_⟩
  · intro r x b hx hb
    obtain ⟨o, p, dt, _, _, hz⟩ := hget hx hb
    exact (h1 r _ _ hz hb).1
  · intro r i b hoi hb
    have hr : r < ranks.length := by rw [hD.nranks]; exact hoi.1
    obtain ⟨o, p, dt, _, _, hz⟩ := hget (List.getElem?_eq_getElem hr) hb
    exact (h1 r _ _ hz hb).2.2 i hoi
  · intro r x a b hx ha hb
    obtain ⟨o, p, dt, _, hd, hz⟩ := hget hx hb
    rw [ha] at hd
    cases hd
    exact (h1 r _ _ hz hb).2.1

theorem loop_spec (hD : Distributed per cl nl G gc ranks) (hN : Numbered per cl nl G ranks outs F) (hE : Orient per cl G ranks outs F E) (hM : Mates per G F mate) :
    ∀ (k : Nat) {dts : List (List ℝ)} {t : Nat → ℝ}, Has cl ranks dts t →
    ∃ res, smoothLoop gc ranks outs k dts = .ok res ∧ Has cl ranks res ((smoothStep G mate)^[k] t)
  | 0, dts, t, h => ⟨dts, rfl, h⟩
  | k + 1, dts, t, h => by
    obtain ⟨d1, e1, h1, _⟩ := pass_spec hD hN hE hM h
    obtain ⟨res, e2, h2⟩ := loop_spec hD hN hE hM k h1
    exact ⟨res, by rw [smoothLoop, e1, Res.ok_bind, e2], by rw [Function.iterate_succ_apply]; exact h2⟩

end DNDSR.Dt
