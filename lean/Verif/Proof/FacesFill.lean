import Verif.Proof.FacesGlobal

/-! Helper lemmas for `Verif.Props.FacesGhost`: writing the ghost faces into `cell2face`. -/

namespace DNDSR.Faces

open DNDSR.Elem DNDSR.IMap DNDSR.MeshAdj DNDSR.Part

theorem includes_spec : ∀ (as bs : List Int), as.Pairwise (· ≤ ·) → bs.Pairwise (· < ·) → (includes as bs = true ↔ ∀ b ∈ bs, b ∈ as) := by
  intro as
  induction as with
  | nil =>
    intro bs _ _
    cases bs with
    | nil => simp [includes]
    | cons b bs => exact ⟨fun h => by simp [includes] at h, fun h => by have := h b (by simp); simp at this⟩
  | cons a as ih =>
    intro bs ha
    obtain ⟨ha1, ha2⟩ := List.pairwise_cons.1 ha
    induction bs with
    | nil => simp [includes]
    | cons b bs ihb =>
      intro hb
      obtain ⟨hb1, hb2⟩ := List.pairwise_cons.1 hb
      rw [includes]
      by_cases h1 : b < a
      · rw [if_pos h1]
        refine ⟨fun h => by (cases h), fun h => ?_⟩
        rcases List.mem_cons.1 (h b (by simp)) with e | e
        · omega
        · have := ha1 b e; omega
      · rw [if_neg h1]
        by_cases h2 : a < b
        · rw [if_pos h2, ih (b :: bs) ha2 hb]
          constructor
          · intro h q hq; exact List.mem_cons_of_mem _ (h q hq)
          · intro h q hq
            have hq' : b ≤ q := by
              rcases List.mem_cons.1 hq with e | e
              · omega
              · have := hb1 q e; omega
            rcases List.mem_cons.1 (h q hq) with e | e
            · omega
            · exact e
        · rw [if_neg h2, ih bs ha2 hb2]
          have : a = b := by omega
          subst this
          constructor
          · intro h q hq
            rcases List.mem_cons.1 hq with e | e
            · rw [e]; simp
            · exact List.mem_cons_of_mem _ (h q e)
          · intro h q hq
            rcases List.mem_cons.1 (h q (List.mem_cons_of_mem _ hq)) with e | e
            · have := hb1 q hq; omega
            · exact e

/-- in cell `l` exactly slot `j` has all the nodes `V` -/
def Only (cells : List Cell) (V : List Int) (l j : Nat) : Prop :=
  ∃ c, cells[l]? = some c ∧ j < (numFaces c.type).toNat ∧ ∀ j' < (numFaces c.type).toNat,
    ∃ ns, extractFaceNodes c.type j' c.nodes = .ok ns ∧ (includes (sortIdx ns) V = true ↔ j' = j)

theorem only_unique {cells : List Cell} {V : List Int} {l j j' : Nat} (h : Only cells V l j) (h' : Only cells V l j') : j = j' := by
  obtain ⟨c, h1, h2, h3⟩ := h
  obtain ⟨c', h1', h2', h3'⟩ := h'
  rw [h1] at h1'; cases h1'
  obtain ⟨ns, e1, e2⟩ := h3 j h2
  obtain ⟨ns', e1', e2'⟩ := h3' j h2
  rw [e1] at e1'; cases e1'
  exact e2'.1 (e2.2 rfl)

theorem fillSlots_spec {c : Cell} {V : List Int} {v : Int} {J : Nat} : ∀ (row : List Int) (j0 : Nat),
    (∀ p < row.length, ∃ ns, extractFaceNodes c.type ((j0 + p : Nat) : Int) c.nodes = .ok ns ∧ (includes (sortIdx ns) V = true ↔ j0 + p = J)) →
    (∀ p e, row[p]? = some e → j0 + p = J → e = -1) →
    fillSlots c V v j0 row = .ok (if j0 ≤ J then row.set (J - j0) v else row, decide (j0 ≤ J ∧ J < j0 + row.length)) := by
  intro row
  induction row with
  | nil =>
    intro j0 _ _
    rw [fillSlots]
    congr 2
    · split <;> rfl
    · simp
  | cons x xs ih =>
    intro j0 h hm
    have hih := ih (j0 + 1) (fun p hp => by
        have := h (p + 1) (by simp; omega)
        rw [show j0 + 1 + p = j0 + (p + 1) by omega]; exact this)
      (fun p e hp he => hm (p + 1) e (by simpa using hp) (by omega))
    obtain ⟨ns, e1, e2⟩ := h 0 (by simp)
    simp only [Nat.add_zero] at e1 e2
    rw [fillSlots, e1, Res.ok_bind, fillSlot]
    by_cases hJ : j0 = J
    · rw [if_pos (e2.2 hJ)]
      have hx := hm 0 x rfl (by omega)
      rw [Res.assert_true _ hx]
      simp only [Res.ok_bind, hih]
      rw [if_neg (by omega), if_pos (by omega), show J - j0 = 0 by omega]
      simp [hJ]
    · rw [if_neg (fun hc => hJ (e2.1 hc))]
      simp only [Res.ok_bind, hih, Bool.false_or]
      congr 2
      · by_cases h1 : j0 ≤ J
        · rw [if_pos (by omega), if_pos h1, show J - j0 = (J - (j0 + 1)) + 1 by omega, List.set_cons_succ]
        · rw [if_neg (by omega), if_neg h1]
      · simp only [List.length_cons, decide_eq_decide]; omega

/-- rows with an entry for every slot -/
def Shaped (cells : List Cell) (c2f : List (List Int)) : Prop :=
  c2f.length = cells.length ∧ ∀ (l : Nat) (c : Cell) (row : List Int), cells[l]? = some c → c2f[l]? = some row → row.length = (numFaces c.type).toNat

theorem fillCell_spec {cells : List Cell} {V : List Int} {v : Int} {c2f : List (List Int)} {l j : Nat} (hS : Shaped cells c2f)
    (ho : Only cells V l j) (hm : Gives c2f l j (-1)) :
    ∃ c2f', fillCell cells V v c2f (l : Int) = .ok c2f' ∧ Shaped cells c2f' ∧
      ∀ (l' j' : Nat) (e : Int), Gives c2f' l' j' e ↔ ((l', j') = (l, j) ∧ e = v) ∨ ((l', j') ≠ (l, j) ∧ Gives c2f l' j' e) := by
  obtain ⟨c, h1, h2, h3⟩ := ho
  obtain ⟨row, hr, hj⟩ := hm
  have hlc : l < cells.length := (List.getElem?_eq_some_iff.1 h1).1
  have hlr : l < c2f.length := by rw [hS.1]; exact hlc
  have hw := hS.2 l c row h1 hr
  obtain ⟨row', a1, a2⟩ := at64_eq (l := c2f) (v := (l : Int)) (by omega) (by omega)
  obtain ⟨c', b1, b2⟩ := at64_eq (l := cells) (v := (l : Int)) (by omega) (by omega)
  rw [Int.toNat_natCast] at a2 b2
  rw [hr] at a2; cases a2
  rw [h1] at b2; cases b2
  have hf := fillSlots_spec (c := c) (V := V) (v := v) (J := j) row 0
    (fun p hp => by rw [Nat.zero_add]; exact h3 p (by omega))
    (fun p e hp he => by
      have : p = j := by omega
      subst this
      rw [hj] at hp; cases hp; rfl)
  rw [if_pos (by omega), Nat.sub_zero] at hf
  have hjl : j < row.length := by omega
  refine ⟨c2f.set l (row.set j v), ?_, ⟨by simpa using hS.1, ?_⟩, ?_⟩
  · rw [fillCell, a1, Res.ok_bind, b1, Res.ok_bind, hf, Res.ok_bind]
    simp only
    rw [Res.assert_true _ (by simp; omega), Res.ok_bind, Int.toNat_natCast]
  · intro l' cc rr hcc hrr
    by_cases e : l' = l
    · subst e
      rw [List.getElem?_set_self hlr] at hrr
      cases hrr
      rw [h1] at hcc; cases hcc
      simp [hw]
    · rw [List.getElem?_set_ne (by omega)] at hrr
      exact hS.2 l' cc rr hcc hrr
  · intro l' j' e
    by_cases e1 : l' = l
    · subst e1
      simp only [Gives, List.getElem?_set_self hlr, Option.some.injEq, exists_eq_left', hr, Prod.mk.injEq, true_and]
      by_cases e2 : j' = j
      · subst e2
        rw [List.getElem?_set_self hjl]
        simp only [Option.some.injEq, true_and, not_true, ne_eq, false_and, or_false]
        exact eq_comm
      · rw [List.getElem?_set_ne (by omega)]
        simp [e2]
    · simp only [Gives, List.getElem?_set_ne (show l ≠ l' by omega), Prod.mk.injEq, e1, false_and, false_or, ne_eq, not_false_eq_true, true_and]

/-- face `f` is to be written to slot `(l, j)` -/
def On (cells : List Cell) (f : Face) (l j : Nat) : Prop :=
  (f.first = l ∨ f.second = l) ∧ ∃ V, sortedVerts f.slot.type f.slot.nodes = .ok V ∧ Only cells V l j

/-- face `f` is on two cells -/
structure Fillable (cells : List Cell) (nOwn : Nat) (f : Face) (l1 j1 l2 j2 : Nat) : Prop where
  first : f.first = l1
  second : f.second = l2
  ge : nOwn ≤ l1
  ne : (l1, j1) ≠ (l2, j2)
  on1 : On cells f l1 j1
  on2 : On cells f l2 j2

theorem fillFace_spec {cells : List Cell} {nOwn : Nat} {v : Int} {c2f : List (List Int)} {f : Face} {l1 j1 l2 j2 : Nat} (hS : Shaped cells c2f)
    (h : Fillable cells nOwn f l1 j1 l2 j2) (hm : ∀ l j, On cells f l j → Gives c2f l j (-1)) :
    ∃ c2f', fillFace cells nOwn v c2f f = .ok c2f' ∧ Shaped cells c2f' ∧
      ∀ (l j : Nat) (e : Int), Gives c2f' l j e ↔ (On cells f l j ∧ e = v) ∨ (¬ On cells f l j ∧ Gives c2f l j e) := by
  obtain ⟨V, hV, o1⟩ := h.on1.2
  obtain ⟨V', hV', o2⟩ := h.on2.2
  rw [hV] at hV'; cases hV'
  have hon : ∀ l j, On cells f l j ↔ (l, j) = (l1, j1) ∨ (l, j) = (l2, j2) := by
    intro l j
    constructor
    · rintro ⟨h1, V', h2, h3⟩
      rw [hV] at h2; cases h2
      rcases h1 with h1 | h1
      · have : l = l1 := by have := h.first; omega
        subst this
        rw [only_unique h3 o1]; exact Or.inl rfl
      · have : l = l2 := by have := h.second; omega
        subst this
        rw [only_unique h3 o2]; exact Or.inr rfl
    · rintro (e | e) <;> simp only [Prod.mk.injEq] at e <;> obtain ⟨rfl, rfl⟩ := e
      · exact h.on1
      · exact h.on2
  obtain ⟨c1, e1, s1, g1⟩ := fillCell_spec (v := v) hS o1 (hm _ _ h.on1)
  obtain ⟨c2, e2, s2, g2⟩ := fillCell_spec (v := v) s1 o2 ((g1 _ _ _).2 (Or.inr ⟨h.ne.symm, hm _ _ h.on2⟩))
  refine ⟨c2, ?_, s2, ?_⟩
  · rw [fillFace, Res.assert_true _ (by have := h.first; have := h.ge; omega), Res.ok_bind, hV, Res.ok_bind, h.first, e1, Res.ok_bind, h.second, e2]
  · intro l j e
    rw [g2, g1, hon]
    constructor
    · rintro (⟨h1, h2⟩ | ⟨h1, ⟨h2, h3⟩ | ⟨h2, h3⟩⟩)
      · exact Or.inl ⟨Or.inr h1, h2⟩
      · exact Or.inl ⟨Or.inl h2, h3⟩
      · exact Or.inr ⟨fun hc => hc.elim h2 h1, h3⟩
    · rintro (⟨h1 | h1, h2⟩ | ⟨h1, h2⟩)
      · refine Or.inr ⟨fun hc => h.ne (by rw [← h1, hc]), Or.inl ⟨h1, h2⟩⟩
      · exact Or.inl ⟨h1, h2⟩
      · exact Or.inr ⟨fun hc => h1 (Or.inr hc), Or.inr ⟨fun hc => h1 (Or.inl hc), h2⟩⟩

theorem fillFaces_spec {cells : List Cell} {nOwn : Nat} : ∀ (fs : List Face) (v : Int) (c2f : List (List Int)), Shaped cells c2f →
    (∀ f ∈ fs, (∃ l1 j1 l2 j2, Fillable cells nOwn f l1 j1 l2 j2) ∧ ∀ l j, On cells f l j → Gives c2f l j (-1)) →
    fs.Pairwise (fun f g => ∀ l j, On cells f l j → ¬ On cells g l j) →
    ∃ c2f', fillFaces cells nOwn v c2f fs = .ok c2f' ∧ Shaped cells c2f' ∧
      ∀ (l j : Nat) (e : Int), Gives c2f' l j e ↔ (∃ (k : Nat) (f : Face), fs[k]? = some f ∧ On cells f l j ∧ e = v + k) ∨
        ((∀ f ∈ fs, ¬ On cells f l j) ∧ Gives c2f l j e) := by
  intro fs
  induction fs with
  | nil => intro v c2f hS _ _; exact ⟨c2f, rfl, hS, by simp⟩
  | cons f fs ih =>
    intro v c2f hS h hp
    obtain ⟨hp1, hp2⟩ := List.pairwise_cons.1 hp
    obtain ⟨⟨l1, j1, l2, j2, hf⟩, hm⟩ := h f (by simp)
    obtain ⟨c1, e1, s1, g1⟩ := fillFace_spec (v := v) hS hf hm
    obtain ⟨c2, e2, s2, g2⟩ := ih (v + 1) c1 s1 (fun g hg => ⟨(h g (by simp [hg])).1, fun l j hon =>
      (g1 l j (-1)).2 (Or.inr ⟨fun hc => hp1 g hg l j hc hon, (h g (by simp [hg])).2 l j hon⟩)⟩) hp2
    refine ⟨c2, by rw [fillFaces, e1, Res.ok_bind, e2], s2, ?_⟩
    intro l j e
    rw [g2, g1]
    constructor
    · rintro (⟨k, g, h1, h2, h3⟩ | ⟨h1, ⟨h2, h3⟩ | ⟨h2, h3⟩⟩)
      · exact Or.inl ⟨k + 1, g, by simpa using h1, h2, by push_cast; omega⟩
      · exact Or.inl ⟨0, f, rfl, h2, by simpa using h3⟩
      · refine Or.inr ⟨?_, h3⟩
        intro g hg
        rcases List.mem_cons.1 hg with rfl | hg
        · exact h2
        · exact h1 g hg
    · rintro (⟨k, g, h1, h2, h3⟩ | ⟨h1, h2⟩)
      · cases k with
        | zero =>
          simp only [List.getElem?_cons_zero, Option.some.injEq] at h1
          subst h1
          exact Or.inr ⟨fun g hg hc => hp1 g hg l j h2 hc, Or.inl ⟨h2, by simpa using h3⟩⟩
        | succ k => exact Or.inl ⟨k, g, by simpa using h1, h2, by push_cast at h3; omega⟩
      · exact Or.inr ⟨fun g hg => h1 g (by simp [hg]), Or.inr ⟨h1 f (by simp), h2⟩⟩

/-! ### which slot has the corners of a face -/

theorem slots_differ (t : ElemType) (ht : t ≠ .unknown) : ∀ j ∈ faces t, ∀ j' ∈ faces t,
    (∀ k ∈ (fnodes t j).take (numVertices (faceType t j)).toNat, k ∈ fnodes t j') → j = j' := by
  cases t <;> first | exact absurd rfl ht | decide +kernel

theorem only_of {per : Bool} {n : Nat} {cells : List Cell} {l j : Nat} {c : Cell} (hc : cells[l]? = some c) (hv : Valid per n c) (hn : c.nodes.Nodup)
    (hj : j < (numFaces c.type).toNat) {V : List Int} (hV : V.Perm (corners (slot per c j))) : Only cells (sortIdx V) l j := by
  refine ⟨c, hc, hj, ?_⟩
  have ht := good_table c.type hv.known j (List.mem_range.2 hj)
  have hlen : ∀ {a : Nat}, a < (numNodes c.type).toNat → a < c.nodes.length := fun h => by rw [hv.nodes]; exact h
  have hd : (fnodes c.type j).Nodup := (face_lists_valid c.type hv.known j (List.mem_range.2 hj)).2.2.1
  have hcn : (corners (slot per c j)).Nodup := by
    simp only [corners, slot, ← List.map_take]
    refine List.Nodup.map_on ?_ ((List.take_sublist _ _).nodup hd)
    intro x hx y hy he
    have lx := hlen (ht.2.2.2 x (List.mem_of_mem_take hx))
    have ly := hlen (ht.2.2.2 y (List.mem_of_mem_take hy))
    rw [List.getElem?_eq_getElem lx, List.getElem?_eq_getElem ly, Option.getD_some, Option.getD_some] at he
    exact (List.Nodup.getElem_inj_iff hn).1 he
  have hVs : (sortIdx V).Pairwise (· < ·) := by
    have h1 := sortIdx_sorted V
    have h2 : (sortIdx V).Nodup := (sortIdx_perm V).nodup_iff.2 (hV.nodup_iff.2 hcn)
    exact List.Pairwise.imp₂ (fun a b h h' => by have : a ≠ b := h'; omega) h1 h2
  intro j' hj'
  have ht' := good_table c.type hv.known j' (List.mem_range.2 hj')
  refine ⟨_, face_extract c.type hv.known j' (List.mem_range.2 hj') c.nodes hv.nodes, ?_⟩
  rw [includes_spec _ _ (sortIdx_sorted _) hVs]
  constructor
  · intro h
    refine (slots_differ c.type hv.known j (List.mem_range.2 hj) j' (List.mem_range.2 hj') ?_).symm
    intro k hk
    have lk := hlen (ht.2.2.2 k (List.mem_of_mem_take hk))
    have hmem : c.nodes[k]?.getD 0 ∈ corners (slot per c j) := by
      simp only [corners, slot, ← List.map_take]
      exact List.mem_map.2 ⟨k, hk, rfl⟩
    have := h _ ((sortIdx_perm V).mem_iff.2 (hV.mem_iff.2 hmem))
    rw [(sortIdx_perm _).mem_iff] at this
    obtain ⟨k', hk', e⟩ := List.mem_map.1 this
    have lk' := hlen (ht'.2.2.2 k' hk')
    simp only [List.getElem?_eq_getElem lk, List.getElem?_eq_getElem lk', Option.getD_some] at e
    have := (List.Nodup.getElem_inj_iff hn).1 e
    rw [← this]; exact hk'
  · rintro rfl b hb
    rw [(sortIdx_perm _).mem_iff] at hb ⊢
    have := hV.mem_iff.1 hb
    simp only [corners, slot] at this
    exact List.mem_of_mem_take this

end DNDSR.Faces
