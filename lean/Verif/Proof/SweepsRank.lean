import Verif.Proof.Sweeps

/-! Helper lemmas for `Verif.Props.Sweeps`: from the numbers of a rank to those of the mesh. -/

namespace DNDSR.Sweep

open DNDSR.Elem DNDSR.IMap DNDSR.MeshAdj DNDSR.Faces
open DNDSR.Flux (nSides at64_ok firstSide isSlot_of lt_of_isSlot nSides_eq)
open Matrix

variable {m : Nat} {K : Type} [Field K] [LinearOrder K]
variable {per : Bool} {cl nl : List Nat} {G : List Cell} {gc : GOM} {ranks : List RankIn} {outs : List RankOut} {F : Nat → Nat → Int}
  {rs : List (Rk m K)} {D : Nat → Matrix (Fin m) (Fin m) K} {cpl : Int → Bool → (Fin m → K) → Fin m → K} {b : Nat → Fin m → K}
  {E : Int → Nat × Nat} {mate : Nat → Nat → Option Nat}

theorem mates_exist (hD : Distributed per cl nl G gc ranks) (hN : Numbered per cl nl G ranks outs F) : ∃ mate, Mates per G F mate := by
  have h : ∀ i j : Nat, ∃ o : Option Nat, ∀ a, IsSlot per G i j a → ∀ i', o = some i' ↔
      ∃ (j' : Nat) (b : Slot), IsSlot per G i' j' b ∧ F i' j' = F i j ∧ (i', j') ≠ (i, j) := by
    intro i j
    by_cases h : ∃ (i' j' : Nat) (b : Slot), IsSlot per G i' j' b ∧ F i' j' = F i j ∧ (i', j') ≠ (i, j)
    · obtain ⟨i1, j1, b1, h1, h2, h3⟩ := h
      refine ⟨some i1, fun a ha i' => ⟨?_, ?_⟩⟩
      · intro e
        cases e
        exact ⟨j1, b1, h1, h2, h3⟩
      · rintro ⟨j', b', h4, h5, h6⟩
        have := two_sides hD hN ha h1 h4 h2 h5 h3 h6
        cases this
        rfl
    · refine ⟨none, fun a ha i' => ⟨fun e => (by cases e), ?_⟩⟩
      rintro ⟨j', b', h4, h5, h6⟩
      exact absurd ⟨i', j', b', h4, h5, h6⟩ h
  choose mate hm using h
  exact ⟨mate, fun i j a ha i' => hm i j a ha i'⟩

theorem mate_ne (hD : Distributed per cl nl G gc ranks) (hN : Numbered per cl nl G ranks outs F) (hM : Mates per G F mate) {i j i' : Nat} {a : Slot}
    (ha : IsSlot per G i j a) (h : mate i j = some i') : i' ≠ i := by
  obtain ⟨j', b, hb, e, hne⟩ := (hM i j a ha i').1 h
  exact other_cell hD hN hb ha e hne

/-- the local number of a cell on a rank that holds it -/
def loc (x : RankIn) (i : Nat) : Nat := (nameOf x.cellMap i).toNat

theorem loc_eq {r : Nat} {x : RankIn} (hH : Holds cl nl G r x) {l i : Nat} (h : Is cl r x l i) : loc x i = l := by
  rw [loc, nameOf_eq hH.cellMap.faithful (by omega) h, Int.toNat_natCast]

/-- the neighbours in local numbers -/
def nbrs (F : Nat → Nat → Int) (E : Int → Nat × Nat) (mate : Nat → Nat → Option Nat) (cpl : Int → Bool → (Fin m → K) → Fin m → K) (x : RankIn) (i j : Nat) :
    Option (Nat × ((Fin m → K) → Fin m → K)) :=
  (mate i j).map fun i' => (loc x i', cpl (F i j) (!firstSide E F i j))

/-- every neighbour of an own cell is on the rank -/
theorem mate_is (hD : Distributed per cl nl G gc ranks) (hN : Numbered per cl nl G ranks outs F) (hM : Mates per G F mate) {r : Nat} {x : RankIn}
    (hx : ranks[r]? = some x) {i j i' : Nat} {a : Slot} (hoi : Owns cl r i) (ha : IsSlot per G i j a) (h : mate i j = some i') : Is cl r x (loc x i') i' := by
  have hH := hD.holds r x hx
  obtain ⟨j', b, hb, e, hne⟩ := (hM i j a ha i').1 h
  have hs := (hN.iff i j i' j' a b ha hb).1 e.symm
  have : ∃ l' : Nat, Is cl r x l' i' := by
    by_cases ho' : Owns cl r i'
    · exact name_exists hH.cellMap.faithful (Or.inl ho')
    · exact name_exists hH.cellMap.faithful (Or.inr ⟨hD.near r x i j i' j' a b hx ha hb hs hoi ho', ho'⟩)
  obtain ⟨l', hl'⟩ := this
  rw [loc_eq hH hl']
  exact hl'

/-- the row of an own cell -/
theorem row_of (hD : Distributed per cl nl G gc ranks) (hN : Numbered per cl nl G ranks outs F) {r : Nat} {x : RankIn} {o : RankOut}
    (hx : ranks[r]? = some x) (ho : outs[r]? = some o) {l i : Nat} (hi : Is cl r x l i) (hoi : Owns cl r i) :
    ∃ row, o.c2f[l]? = some row ∧ row.length = nSides G i := by
  have hH := hD.holds r x hx
  have hlt : l < o.c2f.length := by rw [hN.rows r x o hx ho]; exact is_lt hH hi
  have hG : ∃ C, G[i]? = some C := by
    have := (owns_range hoi).2
    exact ⟨_, List.getElem?_eq_getElem (by rw [hD.len]; omega)⟩
  obtain ⟨C, hC⟩ := hG
  have hrow := List.getElem?_eq_getElem hlt
  refine ⟨_, hrow, ?_⟩
  rw [nSides_eq hC]
  exact hN.width r x o l i C _ hx ho hi hC hrow

theorem fitRow (hD : Distributed per cl nl G gc ranks) (hN : Numbered per cl nl G ranks outs F) (hE : Orient per cl G ranks outs F E)
    (hM : Mates per G F mate) (hG : Given cl ranks outs rs D cpl b) {r : Nat} {x : RankIn} {o : RankOut} {s : Rk m K}
    (hx : ranks[r]? = some x) (ho : outs[r]? = some o) (hs : rs[r]? = some s) {l i : Nat} (hi : Is cl r x l i) (hoi : Owns cl r i) {row : List Int}
    (hrow : o.c2f[l]? = some row) (hlen : row.length = nSides G i) : FitRow s.sys l x.cells.length row (nbrs F E mate cpl x i) := by
  have hH := hD.holds r x hx
  intro j e he
  have hj : j < nSides G i := by rw [← hlen]; exact (List.getElem?_eq_some_iff.1 he).1
  obtain ⟨a, ha⟩ := isSlot_of (per := per) hj
  obtain ⟨v, f, h1, hn, hf⟩ := own_face hN hx ho hi hoi ha
  have : e = (v : Int) := gives_unique ⟨row, hrow, he⟩ h1
  subst this
  have hq := hN.range i j a ha
  have hcp := hG.couple r o s _ v ho hs hn hq
  obtain ⟨⟨l1, e1, h4⟩, h5⟩ := hE.face r x o _ _ f hx ho hq hn hf
  obtain ⟨hs1, c, hc⟩ := hE.slot _ hq
  refine ⟨f, by rw [(hG.faces r o s ho hs).1]; exact at64_ok hf, ?_⟩
  by_cases hfs : E (F i j) = (i, j)
  · have hll : l1 = l := by rw [hfs] at h4; exact is_unique hH h4 hi
    subst hll
    rcases h5 with ⟨h5, _, h6⟩ | ⟨l', i', j', b', e', h6, hb, hne', h7⟩
    · left
      refine ⟨?_, by rw [if_pos e1, h5]⟩
      cases hmt : mate i j with
      | none => simp [nbrs, hmt]
      | some i' =>
          obtain ⟨j', b', hb', e', hne⟩ := (hM i j a ha i').1 hmt
          exact absurd (h6 i' j' b' hb' e') (by rw [hfs]; exact hne)
    · right
      have hmt : mate i j = some i' := (hM i j a ha i').2 ⟨j', b', hb, h7, by rw [hfs] at hne'; exact hne'⟩
      refine ⟨l', cpl (F i j), ?_, at64_ok hcp, by rw [if_pos e1, e'], is_lt hH h6⟩
      simp only [nbrs, hmt, Option.map_some, loc_eq hH h6, if_pos e1, firstSide, hfs, decide_true, Bool.not_true]
  · have hne : l1 ≠ l := by
      rintro rfl
      have := is_inj hH h4 hi
      refine hfs ?_
      have h6 : (E (F i j)).2 = j := by
        rw [this] at hc hs1
        exact slots_apart hD hc ha ((hN.iff i _ i j c a hc ha).1 hs1)
      exact Prod.ext this h6
    have hne' : ¬ (f.first = (l : Int)) := by rw [e1]; omega
    right
    have hmt : mate i j = some (E (F i j)).1 := (hM i j a ha _).2 ⟨_, c, hc, hs1, hfs⟩
    refine ⟨l1, cpl (F i j), ?_, at64_ok hcp, by rw [if_neg hne', e1], is_lt hH h4⟩
    simp only [nbrs, hmt, Option.map_some, loc_eq hH h4, if_neg hne', firstSide, hfs, decide_false, Bool.not_false]

open Classical in
/-- the sum over the row is the sum over the faces of the cell -/
theorem rowSum_eq {E : Int → Nat × Nat} {x : RankIn} {i : Nat} (keep : Int → Bool) (P : Nat → Prop) (w : Nat → Fin m → K) (X : Nat → Fin m → K)
    (hk : ∀ j < nSides G i, ∀ i', mate i j = some i' → (keep (loc x i') = true ↔ P i') ∧ (P i' → w (loc x i') = X i')) :
    rowSum keep (nbrs F E mate cpl x i) (nSides G i) w = offIf G F (firstSide E F) mate cpl i P X := by
  rw [rowSum, offIf]
  refine Finset.sum_congr rfl fun j hj => ?_
  cases hmt : mate i j with
  | none => simp [nbrs, hmt]
  | some i' =>
      obtain ⟨h1, h2⟩ := hk j (Finset.mem_range.1 hj) i' hmt
      simp only [nbrs, hmt, Option.map_some]
      by_cases hP : P i'
      · rw [if_pos (h1.2 hP), if_pos hP, h2 hP]
      · rw [if_neg (fun h => hP (h1.1 h)), if_neg hP]

theorem offIf_true {σ : Nat → Nat → Bool} (i : Nat) (X : Nat → Fin m → K) :
    offIf G F σ mate cpl i (fun _ => True) X = off G F σ mate cpl i X := by
  simp [offIf, off]

theorem own_index {r : Nat} {x : RankIn} (hH : Holds cl nl G r x) {i : Nat} (hoi : Owns cl r i) :
    Is cl r x ((i : Int) - before cl r).toNat i ∧ ((i : Int) - before cl r).toNat < x.nOwn := by
  have hi : Is cl r x ((i : Int) - before cl r).toNat i := Or.inl ⟨hoi, by obtain ⟨_, h, _⟩ := hoi; omega⟩
  exact ⟨hi, (is_own hH hi).2 hoi⟩

theorem own_of_lt {r : Nat} {x : RankIn} (hH : Holds cl nl G r x) {l : Nat} (hl : l < x.nOwn) :
    ∃ i : Nat, Is cl r x l i ∧ Owns cl r i ∧ l = ((i : Int) - before cl r).toNat := by
  have hls : l < x.cells.length := by rw [hH.size]; simp only [RankIn.nOwn] at hl; omega
  obtain ⟨i, hi, _⟩ := is_of_lt hH hls
  have hoi := (is_own hH hi).1 hl
  exact ⟨i, hi, hoi, is_unique hH hi (own_index hH hoi).1⟩

theorem nOwn_le {r : Nat} {x : RankIn} (hH : Holds cl nl G r x) : x.nOwn ≤ x.cells.length := by
  rw [hH.size]; simp only [RankIn.nOwn]; omega

/-- whatever the vectors hold, it is a function of the cells -/
theorem own_exists (hD : Distributed per cl nl G gc ranks) (u : Rk m K → List (Fin m → K)) (hsz : rs.length = ranks.length)
    (hlen : ∀ (r : Nat) (x : RankIn) (s : Rk m K), ranks[r]? = some x → rs[r]? = some s → (u s).length = x.cells.length) :
    ∃ X : Nat → Fin m → K, ∀ (r : Nat) (s : Rk m K) (i : Nat), rs[r]? = some s → Owns cl r i → (u s)[((i : Int) - before cl r).toNat]? = some (X i) := by
  have h : ∀ i : Nat, ∃ v : Fin m → K, ∀ (r : Nat) (s : Rk m K), rs[r]? = some s → Owns cl r i → (u s)[((i : Int) - before cl r).toNat]? = some v := by
    intro i
    by_cases h : ∃ r, Owns cl r i
    · obtain ⟨r, hr⟩ := h
      have hr1 : r < rs.length := by rw [hsz, hD.nranks]; exact hr.1
      have hx := List.getElem?_eq_getElem (by rw [← hsz]; exact hr1 : r < ranks.length)
      have hs := List.getElem?_eq_getElem hr1
      have hH := hD.holds r _ hx
      have hlt : ((i : Int) - before cl r).toNat < (u rs[r]).length := by
        rw [hlen r _ _ hx hs]
        have := (own_index hH hr).2
        have := nOwn_le hH
        omega
      refine ⟨(u rs[r])[((i : Int) - before cl r).toNat], fun r' s hs' hr' => ?_⟩
      have := owns_unique hr' hr
      subst this
      rw [hs] at hs'; cases hs'
      exact List.getElem?_eq_getElem hlt
    · exact ⟨0, fun r s _ hr => absurd ⟨r, hr⟩ h⟩
  choose X hX using h
  exact ⟨X, fun r s i hs ho => hX i r s hs ho⟩

theorem has_own (hD : Distributed per cl nl G gc ranks) (hsz : rs.length = ranks.length) {X : Nat → Fin m → K} (h : Has cl ranks rs X) :
    HasOwn cl rs X := by
  intro r s i hs ho
  have hr1 : r < ranks.length := by rw [hD.nranks]; exact ho.1
  have hx := List.getElem?_eq_getElem hr1
  exact h r _ s i _ hx hs (own_index (hD.holds r _ hx) ho).1

theorem given_of {rs' : List (Rk m K)} (hG : Given cl ranks outs rs D cpl b) (hlen : rs'.length = rs.length)
    (h : ∀ (r : Nat) (x : RankIn) (s' : Rk m K), ranks[r]? = some x → rs'[r]? = some s' → ∃ s, rs[r]? = some s ∧ s'.sys = s.sys ∧ Same s.J s'.J ∧
      s'.J.Sound ∧ s'.rhs = s.rhs ∧ s'.x.length = x.cells.length ∧ s'.tmp.length = x.cells.length) : Given cl ranks outs rs' D cpl b := by
  have hx : ∀ {r : Nat} {s' : Rk m K}, rs'[r]? = some s' → ∃ x, ranks[r]? = some x := fun {r s'} hs' =>
    ⟨_, List.getElem?_eq_getElem (by rw [← hG.size, ← hlen]; exact (List.getElem?_eq_some_iff.1 hs').1)⟩
  refine ⟨by rw [hlen, hG.size], ?_, ?_, ?_, ?_, ?_, ?_, ?_, ?_⟩
  · intro r x s' hx hs'
    obtain ⟨s, hs, h1, _⟩ := h r x s' hx hs'
    rw [h1]; exact hG.own r x s hx hs
  · intro r o s' ho hs'
    obtain ⟨x, hx⟩ := hx hs'
    obtain ⟨s, hs, h1, _⟩ := h r x s' hx hs'
    rw [h1]; exact hG.faces r o s ho hs
  · intro r o s' q v ho hs'
    obtain ⟨x, hx⟩ := hx hs'
    obtain ⟨s, hs, h1, _⟩ := h r x s' hx hs'
    rw [h1]; exact hG.couple r o s q v ho hs
  · intro r i s' ho hs'
    obtain ⟨x, hx⟩ := hx hs'
    obtain ⟨s, hs, _, h2, _⟩ := h r x s' hx hs'
    rw [h2.value]; exact hG.blocks r i s ho hs
  · intro r x s' hx hs'
    obtain ⟨s, hs, _, h2, _⟩ := h r x s' hx hs'
    rw [h2.1, h2.2.1, h2.2.2]; exact hG.nblocks r x s hx hs
  · intro r s' hs'
    obtain ⟨x, hx⟩ := hx hs'
    obtain ⟨s, hs, _, _, h3, _⟩ := h r x s' hx hs'
    exact h3
  · intro r i s' ho hs'
    obtain ⟨x, hx⟩ := hx hs'
    obtain ⟨s, hs, _, _, _, h4, _⟩ := h r x s' hx hs'
    rw [h4]; exact hG.rhs r i s ho hs
  · intro r x s' hx hs'
    obtain ⟨s, hs, _, _, _, _, h5, h6⟩ := h r x s' hx hs'
    exact ⟨h5, h6⟩

/-- the effect of a pull -/
theorem pull_spec (hD : Distributed per cl nl G gc ranks) (hN : Numbered per cl nl G ranks outs F) (hG : Given cl ranks outs rs D cpl b)
    {X : Nat → Fin m → K} (h : HasOwn cl rs X) :
    ∃ rs', pullAll gc rs = .ok rs' ∧ Given cl ranks outs rs' D cpl b ∧ Has cl ranks rs' X ∧ ∀ T, TmpOwn cl rs T → TmpOwn cl rs' T := by
  obtain ⟨rs', e1, l1, h1⟩ := N2C.forRanks_all (fun _ (s : Rk m K) => do
    let g ← forRanks (fun _ q => do
      let p ← gc.search q
      match p with
      | none => .abort
      | some p => do
        let t ← idx rs p.1
        at64 t.x p.2) 0 s.sys.ghosts
    .ok { s with x := s.x.take s.sys.n ++ g })
    (fun r s s' => ∀ x, ranks[r]? = some x → (∃ g, s' = { s with x := g } ∧ g.length = x.cells.length ∧ ∀ l i : Nat, Is cl r x l i → g[l]? = some (X i))) rs (by
    intro r s hs
    have hr : r < ranks.length := by rw [← hG.size]; exact (List.getElem?_eq_some_iff.1 hs).1
    have hx := List.getElem?_eq_getElem hr
    have hH := hD.holds r _ hx
    obtain ⟨hn, hgh⟩ := hG.own r _ s hx hs
    obtain ⟨hlx, _⟩ := hG.lens r _ s hx hs
    obtain ⟨g, eg, lg, hg⟩ := N2C.forRanks_all (fun _ q => do
      let p ← gc.search q
      match p with
      | none => .abort
      | some p => do
        let t ← idx rs p.1
        at64 t.x p.2) (fun _ q v => v = X q.toNat) s.sys.ghosts (by
      intro k q hq
      rw [hgh] at hq
      have hlt := (List.getElem?_eq_some_iff.1 hq).1
      obtain ⟨i, hi, hgl⟩ := is_of_lt hH (l := ranks[r].nOwn + k) (by rw [hH.size]; simp only [RankIn.nOwn]; omega)
      have hno : ¬ Owns cl r i := fun h => by have := (is_own hH hi).2 h; omega
      have hqi : q = (i : Int) := by
        rcases hi with ⟨h, _⟩ | ⟨_, k', hk', n, hsz, e⟩ | ⟨_, _, e⟩
        · exact absurd h hno
        · rw [hH.cellMap.faithful.size] at hsz
          have := Option.some.inj hsz
          have : k' = k := by simp only [RankIn.nOwn] at e; omega
          subst this
          rw [hq] at hk'; exact Option.some.inj hk'
        · omega
      subst hqi
      obtain ⟨ρ, hρ⟩ := owns_exists hgl.1 hgl.2
      rw [search_of_owns hD.built hρ]
      simp only [Res.ok_bind]
      have hρl : ρ < rs.length := by rw [hG.size, hD.nranks]; exact hρ.1
      have ht := List.getElem?_eq_getElem hρl
      rw [(idx_ok_iff _ _ _).2 ht]
      simp only [Res.ok_bind]
      have := h ρ _ i ht hρ
      refine ⟨X i, ?_, by rw [Int.toNat_natCast]⟩
      have hge : (0 : Int) ≤ (i : Int) - before cl ρ := by obtain ⟨_, h, _⟩ := hρ; omega
      simp only [at64, if_pos hge]
      exact (idx_ok_iff _ _ _).2 this)
    rw [eg]
    refine ⟨{ s with x := s.x.take s.sys.n ++ g }, rfl, ?_⟩
    intro x hx'
    rw [hx] at hx'; cases hx'
    have htl : (s.x.take s.sys.n).length = ranks[r].nOwn := by
      rw [List.length_take, hn, hlx]
      have := nOwn_le hH
      omega
    refine ⟨_, rfl, by rw [List.length_append, htl, lg, hgh, hH.size]; simp only [RankIn.nOwn], ?_⟩
    intro l i hi
    by_cases hoi : Owns cl r i
    · have hl := (is_own hH hi).2 hoi
      rw [List.getElem?_append_left (by omega), hn, List.getElem?_take_of_lt hl]
      have := h r s i hs hoi
      rwa [is_unique hH (own_index hH hoi).1 hi] at this
    · have hl : ¬ l < ranks[r].nOwn := fun h => hoi ((is_own hH hi).1 h)
      rw [List.getElem?_append_right (by omega), htl]
      rcases hi with ⟨h, _⟩ | ⟨_, k, hk, n, hsz, e⟩ | ⟨_, _, e⟩
      · exact absurd h hoi
      · rw [hH.cellMap.faithful.size] at hsz
        have := Option.some.inj hsz
        have hlk : l - ranks[r].nOwn = k := by simp only [RankIn.nOwn]; omega
        rw [hlk]
        have hkl : k < g.length := by rw [lg, hgh]; exact (List.getElem?_eq_some_iff.1 hk).1
        have hgk := List.getElem?_eq_getElem hkl
        rw [hgk, hg k _ _ (by rw [hgh]; exact hk) hgk, Int.toNat_natCast]
      · omega)
  have hback : ∀ {r : Nat} {s' : Rk m K}, rs'[r]? = some s' → ∃ x s g, ranks[r]? = some x ∧ rs[r]? = some s ∧ s' = { s with x := g } ∧ g.length = x.cells.length ∧
      ∀ l i : Nat, Is cl r x l i → g[l]? = some (X i) := by
    intro r s' hs'
    have hr : r < rs.length := by rw [← l1]; exact (List.getElem?_eq_some_iff.1 hs').1
    have hx := List.getElem?_eq_getElem (by rw [← hG.size]; exact hr : r < ranks.length)
    have hs := List.getElem?_eq_getElem hr
    obtain ⟨g, h2, h3, h4⟩ := h1 r _ s' hs hs' _ hx
    exact ⟨_, _, g, hx, hs, h2, h3, h4⟩
  refine ⟨rs', e1, given_of hG l1 ?_, ?_, ?_⟩
  · intro r x s' hx hs'
    obtain ⟨x', s, g, hx', hs, rfl, hl, _⟩ := hback hs'
    rw [hx] at hx'; cases hx'
    exact ⟨s, hs, rfl, ⟨rfl, rfl, rfl⟩, hG.sound r s hs, rfl, hl, (hG.lens r x s hx hs).2⟩
  · intro r x s' i l hx hs' hi
    obtain ⟨x', s, g, hx', hs, rfl, _, h4⟩ := hback hs'
    rw [hx] at hx'; cases hx'
    exact h4 l i hi
  · intro T hT r s' i hs' ho
    obtain ⟨x', s, g, hx', hs, rfl, _⟩ := hback hs'
    exact hT r s i hs ho

end DNDSR.Sweep
