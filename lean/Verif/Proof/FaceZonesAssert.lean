import Verif.Proof.FaceZonesRank
import Verif.Proof.SweepsRank

/-! Helper lemmas for `Verif.Props.FaceZones`: the checks of `AssertOnFaces`. -/

namespace DNDSR.Faces

open DNDSR.Elem DNDSR.IMap DNDSR.MeshAdj
open DNDSR.Per (isPeriodic)

/-- the face has the cell -/
def touches (l : Nat) (f : Face) : Bool := decide (f.first = l ∨ f.second = l)

/-- what the loop over the faces wants -/
def GoodFace (nOwn nCell : Nat) (p : Face × Info) : Prop :=
  (∃ l : Nat, p.1.first = l ∧ l < nCell) ∧
  ((isInternal p.2.zone = true ∧ p.1.second ≠ unInit ∧ p.1.first ≠ p.1.second ∧ ∃ l : Nat, p.1.second = l ∧ l < nCell) ∨
   (isInternal p.2.zone = false ∧ p.1.second = unInit ∧ p.1.first < nOwn))

theorem bump_eq {cont : List Nat} {l : Nat} (h : l < cont.length) : bump cont l = .ok (cont.set l (cont[l] + 1)) := by
  obtain ⟨n, e1, e2⟩ := at64_eq (l := cont) (v := (l : Int)) (by omega) (by omega)
  rw [Int.toNat_natCast, List.getElem?_eq_getElem h] at e2
  simp only [bump, e1, Res.ok_bind, Int.toNat_natCast, Option.some.inj e2]

theorem assertFace_spec {nOwn nCell : Nat} {f : Face} {z : Info} (hg : GoodFace nOwn nCell (f, z)) {cont : List Nat} (hc : cont.length = nCell) :
    ∃ c, assertFace nOwn nCell f z cont = .ok c ∧ c.length = nCell ∧
      ∀ (l n : Nat), cont[l]? = some n → c[l]? = some (n + if touches l f then 1 else 0) := by
  obtain ⟨⟨a, ha, hal⟩, h⟩ := hg
  simp only at ha
  rcases h with ⟨hz, h1, h2, b, hb, hbl⟩ | ⟨hz, h1, h2⟩
  · simp only at hz h1 h2 hb
    unfold assertFace
    rw [if_pos hz, Res.assert_true _ h1, Res.ok_bind, Res.assert_true _ (by omega), Res.ok_bind, Res.assert_true _ (by omega), Res.ok_bind, ha, hb,
      bump_eq (by omega), Res.ok_bind, bump_eq (by rw [List.length_set]; omega)]
    refine ⟨_, rfl, by simp [hc], fun l n hl => ?_⟩
    have hll := (List.getElem?_eq_some_iff.1 hl)
    obtain ⟨hlt, hle⟩ := hll
    have hab : a ≠ b := by omega
    simp only [touches, ha, hb, List.getElem?_set, List.length_set, List.getElem_set_ne hab]
    by_cases e1 : b = l
    · subst e1
      rw [if_pos rfl, if_pos hlt]
      simp [hle]
    · rw [if_neg e1]
      by_cases e2 : a = l
      · subst e2
        rw [if_pos rfl, if_pos hlt]
        simp [hle]
      · rw [if_neg e2, hl, if_neg]
        · rfl
        · simp only [decide_eq_true_eq]; omega
  · simp only at hz h1 h2
    unfold assertFace
    rw [if_neg (by rw [hz]; decide), Res.assert_true _ h1, Res.ok_bind, Res.assert_true _ (by omega), Res.ok_bind, ha, bump_eq (by omega)]
    refine ⟨_, rfl, by simp [hc], fun l n hl => ?_⟩
    obtain ⟨hlt, hle⟩ := List.getElem?_eq_some_iff.1 hl
    have hu : unInit ≠ (l : Int) := by have := unInit_neg; omega
    simp only [touches, ha, h1, List.getElem?_set]
    by_cases e2 : a = l
    · subst e2
      rw [if_pos rfl, if_pos hlt]
      simp [hle]
    · rw [if_neg e2, hl, if_neg]
      · rfl
      · simp only [decide_eq_true_eq]; omega

theorem assertFaces_spec {nOwn nCell : Nat} : ∀ (fs : List (Face × Info)) (cont : List Nat), cont.length = nCell → (∀ p ∈ fs, GoodFace nOwn nCell p) →
    ∃ c, assertFaces nOwn nCell fs cont = .ok c ∧ c.length = nCell ∧
      ∀ (l n : Nat), cont[l]? = some n → c[l]? = some (n + fs.countP fun p => touches l p.1)
  | [], cont, hc, _ => ⟨cont, rfl, hc, fun l n h => by simpa using h⟩
  | (f, z) :: fs, cont, hc, hg => by
    obtain ⟨c1, e1, l1, h1⟩ := assertFace_spec (hg _ List.mem_cons_self) hc
    obtain ⟨c2, e2, l2, h2⟩ := assertFaces_spec fs c1 l1 fun p hp => hg p (List.mem_cons_of_mem _ hp)
    refine ⟨c2, by rw [assertFaces, e1, Res.ok_bind, e2], l2, fun l n h => ?_⟩
    rw [h2 l _ (h1 l n h)]
    simp only [List.countP_cons]
    congr 1
    omega

theorem assertCell_spec {faces : List Face} {cell : Nat} : ∀ (row : List Int),
    (∀ v ∈ row, ∃ (n : Nat) (f : Face), v = n ∧ faces[n]? = some f ∧ touches cell f = true) → assertCell faces cell row = .ok ()
  | [], _ => rfl
  | v :: vs, h => by
    obtain ⟨n, f, rfl, hf, ht⟩ := h _ List.mem_cons_self
    have hn := (List.getElem?_eq_some_iff.1 hf).1
    obtain ⟨g, e1, e2⟩ := at64_eq (l := faces) (v := (n : Int)) (by omega) (by omega)
    rw [Int.toNat_natCast, hf] at e2; cases e2
    rw [assertCell, Res.assert_true _ (by omega), Res.ok_bind, e1, Res.ok_bind, Res.assert_true _ (by simpa [touches] using ht), Res.ok_bind]
    exact assertCell_spec vs fun v hv => h v (List.mem_cons_of_mem _ hv)

/-- counting by position -/
theorem countP_range {α : Type} (t : α → Bool) : ∀ (L : List α), L.countP t = ((List.range L.length).filter fun n => (L[n]?.map t).getD false).length := by
  intro L
  induction L using List.reverseRecOn with
  | nil => rfl
  | append_singleton L a ih =>
    rw [List.countP_append, List.length_append, List.length_singleton, List.range_succ, List.filter_append, List.length_append, ih]
    congr 1
    · congr 1
      apply List.filter_congr
      intro n hn
      rw [List.getElem?_append_left (List.mem_range.1 hn)]
    · simp only [List.countP_singleton, List.filter_cons, List.filter_nil, List.getElem?_concat_length, Option.map_some, Option.getD_some]
      split <;> rfl

/-- a list that names each entry with the property once -/
theorem countP_row {α : Type} (t : α → Bool) (L : List α) (row : List Int) (hn : row.Nodup)
    (h1 : ∀ v ∈ row, ∃ (n : Nat) (a : α), v = n ∧ L[n]? = some a ∧ t a = true)
    (h2 : ∀ (n : Nat) (a : α), L[n]? = some a → t a = true → (n : Int) ∈ row) : L.countP t = row.length := by
  rw [countP_range, ← List.length_map (f := fun n : Nat => (n : Int))]
  apply List.Perm.length_eq
  rw [List.perm_ext_iff_of_nodup]
  · intro v
    simp only [List.mem_map, List.mem_filter, List.mem_range]
    constructor
    · rintro ⟨n, ⟨hl, ht⟩, rfl⟩
      rw [List.getElem?_eq_getElem hl] at ht
      exact h2 n _ (List.getElem?_eq_getElem hl) ht
    · intro hv
      obtain ⟨n, a, rfl, hL, ht⟩ := h1 v hv
      exact ⟨n, ⟨(List.getElem?_eq_some_iff.1 hL).1, by rw [hL]; exact ht⟩, rfl⟩
  · exact (List.nodup_range.filter _).map (fun a b h => by simpa using h)
  · exact hn

theorem internal_of_periodic {z : Int} (h : isPeriodic z = true) : isInternal z = true := by
  simp only [isPeriodic, isInternal] at *
  simp at h ⊢
  omega

theorem not_internal {z : Int} (h : isExternal z = true) : isInternal z = false := by
  simp only [isExternal, isInternal, decide_eq_true_eq, decide_eq_false_iff_not] at *
  omega

section mesh
variable {per : Bool} {cl nl : List Nat} {G : List Cell} {gc : GOM} {ranks : List RankIn} {outs : List RankOut} {F : Nat → Nat → Int}
  {bnds : List (List BndRow)} {Z : Nat → Nat → Option Info} {zs : List ZSt} {r : Nat} {x : RankIn} {o : RankOut} {z : ZSt}

theorem good_faces (hD : Distributed per cl nl G gc ranks) (hN : Numbered per cl nl G ranks outs F) (hB : Bounded per cl nl G ranks bnds Z)
    (hC : Closed per G Z) (hZ : Zoned per cl nl G ranks bnds Z outs F zs) (hx : ranks[r]? = some x) (ho : outs[r]? = some o) (hz : zs[r]? = some z) :
    ∀ p ∈ o.faces.zip z.info, GoodFace x.nOwn o.c2f.length p := by
  rintro ⟨f, w⟩ hp
  obtain ⟨v, hv⟩ := List.mem_iff_getElem?.1 hp
  obtain ⟨hf, hw⟩ := List.getElem?_zip_eq_some.1 hv
  simp only at hf hw
  have hH := hD.holds r x hx
  obtain ⟨l, i, j, a, hl, hi, ha, hname, _, hown, hs⟩ := hN.faces r x o v f hx ho hf
  have hwi := hZ.info r x o z v l i j f a hx ho hz hf hl hi ha hname
  rw [hw] at hwi
  have hwe := Option.some.inj hwi
  subst hwe
  have hr := hN.rows r x o hx ho
  have hll := is_lt hH hi
  refine ⟨⟨l, hl, by omega⟩, ?_⟩
  rcases hs with ⟨h2, hoF, honly⟩ | ⟨l', i', j', b, h2, hi', hb, hne, hFF, _⟩
  · right
    obtain ⟨y, hy, hye⟩ := hC i j a ha fun i' j' b hb hab => honly i' j' b hb ((hN.iff i j i' j' a b ha hb).2 hab).symm
    refine ⟨by rw [hy]; exact not_internal hye, h2, ?_⟩
    have := (is_own hH hi).2 (hown r hoF)
    simp only [hl]; omega
  · left
    have hll' := is_lt hH hi'
    have hu : f.second ≠ unInit := by have := unInit_neg; omega
    refine ⟨?_, hu, ?_, l', h2, by omega⟩
    · cases hzz : Z i j with
      | none => rfl
      | some y => exact internal_of_periodic (hB.twin i j i' j' a b y ha hb ((hN.iff i j i' j' a b ha hb).1 hFF.symm) (Ne.symm hne) hzz).1
    · intro e
      have : l = l' := by simp only at e; omega
      subst this
      have := is_inj hH hi hi'
      exact other_cell hD hN ha hb hFF.symm (Ne.symm hne) this

/-- the row of an own cell names the faces that have the cell, each once -/
theorem own_row (hD : Distributed per cl nl G gc ranks) (hN : Numbered per cl nl G ranks outs F) (hx : ranks[r]? = some x) (ho : outs[r]? = some o)
    {l : Nat} {row : List Int} (hl : l < x.nOwn) (hrow : o.c2f[l]? = some row) : row.Nodup ∧
    (∀ v ∈ row, ∃ (n : Nat) (f : Face), v = n ∧ o.faces[n]? = some f ∧ touches l f = true) ∧
    (∀ (n : Nat) (f : Face), o.faces[n]? = some f → touches l f = true → (n : Int) ∈ row) := by
  have hH := hD.holds r x hx
  have hFa := face_faithful hN ho
  have hr := hN.rows r x o hx ho
  obtain ⟨i, hi, _⟩ := is_of_lt hH (l := l) (by rw [← hr]; exact (List.getElem?_eq_some_iff.1 hrow).1)
  have hoi := (is_own hH hi).1 hl
  obtain ⟨row', hrow', hlen⟩ := Sweep.row_of hD hN hx ho hi hoi
  rw [hrow] at hrow'; cases hrow'
  have hent : ∀ {j : Nat} {v : Int}, row[j]? = some v → ∃ (n : Nat) (f : Face) (a : Slot), v = n ∧ o.faces[n]? = some f ∧ IsSlot per G i j a ∧
      FName outs r o (F i j) n := by
    intro j v hv
    obtain ⟨a, ha⟩ := Flux.isSlot_of (per := per) (G := G) (i := i) (j := j) (by rw [← hlen]; exact (List.getElem?_eq_some_iff.1 hv).1)
    obtain ⟨n, f, h1, h2, h3⟩ := own_face hN hx ho hi hoi ha
    exact ⟨n, f, a, gives_unique ⟨row, hrow, hv⟩ h1, h3, ha, h2⟩
  refine ⟨?_, ?_, ?_⟩
  · rw [List.nodup_iff_getElem?_ne_getElem?]
    intro j j' hlt hj' e
    have h1 := List.getElem?_eq_getElem hj'
    obtain ⟨n, f, a, hv, _, ha, hn⟩ := hent h1
    obtain ⟨n', f', a', hv', _, ha', hn'⟩ := hent (e.trans h1)
    have hnn : n = n' := by omega
    subst hnn
    have hF := name_inj hFa (by omega) (hN.range i j' a ha).1 (hN.range i j a' ha').1 hn hn'
    have := slots_apart hD ha ha' ((hN.iff i j' i j a a' ha ha').1 hF)
    omega
  · intro v hv
    obtain ⟨j, hj⟩ := List.mem_iff_getElem?.1 hv
    obtain ⟨n, f, a, hv, hf, ha, hn⟩ := hent hj
    refine ⟨n, f, hv, hf, ?_⟩
    obtain ⟨l0, i0, j0, a0, hl0, hi0, ha0, hname, _, _, hs⟩ := hN.faces r x o n f hx ho hf
    have hF := name_inj hFa (by omega) (hN.range i j a ha).1 (hN.range i0 j0 a0 ha0).1 hn hname
    simp only [touches, decide_eq_true_eq]
    by_cases he : (i, j) = (i0, j0)
    · simp only [Prod.mk.injEq] at he
      obtain ⟨rfl, rfl⟩ := he
      left; rw [hl0, is_unique hH hi0 hi]
    · rcases hs with ⟨_, _, honly⟩ | ⟨l', i', j', b, h2, hi', hb, hne, hFF, _⟩
      · exact absurd (honly i j a ha hF) he
      · have := two_sides hD hN ha0 ha hb hF hFF he hne
        simp only [Prod.mk.injEq] at this
        obtain ⟨rfl, rfl⟩ := this
        right; rw [h2, is_unique hH hi' hi]
  · intro n f hf ht
    obtain ⟨l0, i0, j0, a0, hl0, hi0, ha0, hname, _, _, hs⟩ := hN.faces r x o n f hx ho hf
    have hfin : ∀ {j : Nat} {a : Slot}, IsSlot per G i j a → F i j = F i0 j0 → (n : Int) ∈ row := by
      intro j a ha hF
      obtain ⟨n', f', h1, h2, _⟩ := own_face hN hx ho hi hoi ha
      rw [hF] at h2
      have := hFa.name_unique hname h2
      obtain ⟨row', h3, h4⟩ := h1
      rw [hrow] at h3; cases h3
      rw [this]; exact List.mem_of_getElem? h4
    simp only [touches, decide_eq_true_eq] at ht
    rcases ht with ht | ht
    · have : l0 = l := by omega
      subst this
      have := is_inj hH hi hi0
      subst this
      exact hfin ha0 rfl
    · rcases hs with ⟨h2, _, _⟩ | ⟨l', i', j', b, h2, hi', hb, hne, hFF, _⟩
      · have := unInit_neg; omega
      · have : l' = l := by omega
        subst this
        have := is_inj hH hi hi'
        subst this
        exact hfin hb hFF

end mesh

end DNDSR.Faces
