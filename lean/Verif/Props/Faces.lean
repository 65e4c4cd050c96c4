import Verif.Proof.Faces
import Mathlib.Data.List.Nodup

/-!
# C26: every pair of cells that share a face get the same face, every face has one or two cells
-/

namespace DNDSR.Faces

open DNDSR.Elem DNDSR.IMap DNDSR.Part
open DNDSR.Bits (Mark)

/-- C26. For cells whose rows fit their types and whose nodes are nodes of the rank, building the faces never reads
out of range.  It stops exactly if some face would have three sides.  Otherwise every slot of every cell is given
the face it describes, two slots are given one face exactly if they are the same face, and every face records the
one or two cells it was given to. -/
theorem faces_match (per : Bool) (srt : Sorter) (hs : Sorts srt) (nNodes : Nat) (cells : List Cell) (hv : ∀ c ∈ cells, Valid per nNodes c) :
    matchFaces per srt nNodes cells ≠ .ub ∧
    (matchFaces per srt nNodes cells = .abort ↔ Triple per srt cells) ∧
    ∀ st rows, matchFaces per srt nNodes cells = .ok (st, rows) → Matching per srt cells st.faces rows := by
  have hgood : ∀ {i j : Nat} {s : Slot}, IsSlot per cells i j s → Good per nNodes s := by
    rintro i j s ⟨c, hc, hj, rfl⟩
    exact slot_good (hv c (List.mem_of_getElem? hc)) hj
  have key : ∀ st rows, matchFaces per srt nNodes cells = .ok (st, rows) → rows.length = cells.length →
      (∀ (n : Nat) (c : Cell) (row : List Nat), cells[n]? = some c → rows[n]? = some row → row.length = (numFaces c.type).toNat) →
      Inv per nNodes srt (logRows per 0 cells rows) st → Matching per srt cells st.faces rows := by
    intro st rows _ hlen hw hI
    have hlog : ∀ {i j k : Nat} {s : Slot}, IsSlot per cells i j s → Gives rows i j k → ⟨i, j, s, k⟩ ∈ logRows per 0 cells rows := by
      rintro i j k s ⟨c, hc, hj, rfl⟩ ⟨row, hr, hk⟩
      exact (mem_logRows _ _ _).2 ⟨i, c, row, hc, hr, by simp, hk, rfl⟩
    have hun := fun {e : Entry} (he : e ∈ logRows per 0 cells rows) => unzip_log (fun n c row h1 h2 => Nat.le_of_eq (hw n c row h1 h2)) he
    have hgives : ∀ {i j : Nat} {s : Slot}, IsSlot per cells i j s → ∃ k, Gives rows i j k := by
      rintro i j s ⟨c, hc, hj, rfl⟩
      have hi : i < rows.length := by rw [hlen]; exact (List.getElem?_eq_some_iff.1 hc).1
      have hr := List.getElem?_eq_getElem hi
      have hj' : j < rows[i].length := by rw [hw i c _ hc hr]; exact hj
      exact ⟨_, _, hr, List.getElem?_eq_getElem hj'⟩
    have hslot : ∀ {i j k : Nat}, Gives rows i j k → ∃ s, IsSlot per cells i j s := by
      rintro i j k ⟨row, hr, hk⟩
      have hi : i < cells.length := by rw [← hlen]; exact (List.getElem?_eq_some_iff.1 hr).1
      have hc := List.getElem?_eq_getElem hi
      have := hw i _ row hc hr
      have := (List.getElem?_eq_some_iff.1 hk).1
      exact ⟨_, _, hc, by omega, rfl⟩
    refine ⟨hlen, hw, ?_, ?_, ?_⟩
    · intro i j s hs'
      obtain ⟨k, hk⟩ := hgives hs'
      obtain ⟨_, f, h1, h2⟩ := hI.given _ (hlog hs' hk)
      exact ⟨k, f, hk, h1, h2⟩
    · intro i j i' j' k k' s s' h1 h2 g1 g2
      obtain ⟨_, f, a1, a2⟩ := hI.given _ (hlog h1 g1)
      obtain ⟨_, f', b1, b2⟩ := hI.given _ (hlog h2 g2)
      simp only at a1 a2 b1 b2
      have hf := hI.good f (List.mem_of_getElem? a1)
      constructor
      · rintro rfl
        rw [a1] at b1; cases b1
        exact same_trans hs (hgood h1) hf a2 (same_symm b2)
      · intro h
        exact hI.apart k k' f f' a1 b1 (same_trans hs hf (hgood h1) (same_symm a2) (same_trans hs (hgood h1) (hgood h2) h b2))
    · intro k f hf
      have hmem : ∀ {es : List Entry}, (logRows per 0 cells rows).filter (fun e => e.k == k) = es →
          ∀ {i j : Nat}, Gives rows i j k → ∃ e ∈ es, e.i = i ∧ e.j = j := by
        intro es hes i j hg
        obtain ⟨s, hsl⟩ := hslot hg
        exact ⟨⟨i, j, s, k⟩, by rw [← hes, List.mem_filter]; exact ⟨hlog hsl hg, by simp⟩, rfl, rfl⟩
      have hback : ∀ {e : Entry}, e ∈ (logRows per 0 cells rows).filter (fun e => e.k == k) →
          IsSlot per cells e.i e.j e.s ∧ Gives rows e.i e.j k := by
        intro e he
        rw [List.mem_filter, beq_iff_eq] at he
        obtain ⟨h1, row, h2, h3⟩ := hun he.1
        exact ⟨h1, row, h2, by rw [← he.2]; exact h3⟩
      rcases hI.owners k f hf with ⟨e, h1, h2, h3, h4⟩ | ⟨e, e', h1, h2, h3, h4⟩
      · obtain ⟨b1, b2⟩ := hback (e := e) (by rw [h1]; simp)
        refine ⟨e.i, e.j, by rw [← h2]; exact b1, b2, h3, Or.inl ⟨h4, ?_⟩⟩
        intro i' j' hg
        obtain ⟨x, hx, rfl, rfl⟩ := hmem h1 hg
        rw [List.mem_singleton] at hx; subst hx; exact ⟨rfl, rfl⟩
      · obtain ⟨b1, b2⟩ := hback (e := e) (by rw [h1]; simp)
        obtain ⟨c1, c2⟩ := hback (e := e') (by rw [h1]; simp)
        have hbef : Before e e' := by
          have hp := (logRows_sorted (per := per) cells rows 0).filter (fun e => e.k == k)
          rw [h1, List.pairwise_cons] at hp
          exact hp.1 e' (by simp)
        refine ⟨e.i, e.j, by rw [← h2]; exact b1, b2, h3, Or.inr ⟨e'.i, e'.j, h4, hbef, c2, ?_⟩⟩
        intro i' j' hg
        obtain ⟨x, hx, rfl, rfl⟩ := hmem h1 hg
        simp only [List.mem_cons, List.not_mem_nil, or_false] at hx
        rcases hx with rfl | rfl
        · exact Or.inl ⟨rfl, rfl⟩
        · exact Or.inr ⟨rfl, rfl⟩
  rcases addCells_spec hs cells 0 [] ⟨[], List.replicate nNodes []⟩ hv (inv_init per nNodes srt) with
    ⟨st, rows, h1, h2, h3, h4⟩ | ⟨h1, n, c, rows, ks, e, e', h2, h3, h4, h5, h6, h7, h8⟩
  · have hM := key st rows h1 h2 h3 (by simpa using h4)
    change matchFaces per srt nNodes cells = .ok (st, rows) at h1
    refine ⟨by rw [h1]; simp, ?_, ?_⟩
    · rw [h1]
      refine ⟨by simp, ?_⟩
      rintro ⟨i1, j1, i2, j2, i3, j3, s1, s2, s3, p1, p2, p3, d12, d13, d23, q12, q13, q23⟩
      exfalso
      obtain ⟨k1, f1, g1, hf1, _⟩ := hM.given _ _ _ p1
      obtain ⟨k2, f2, g2, _, _⟩ := hM.given _ _ _ p2
      obtain ⟨k3, f3, g3, _, _⟩ := hM.given _ _ _ p3
      have e12 := (hM.iff _ _ _ _ _ _ _ _ p1 p2 g1 g2).2 q12
      have e13 := (hM.iff _ _ _ _ _ _ _ _ p1 p3 g1 g3).2 q13
      subst e12 e13
      obtain ⟨i, j, _, _, _, h | ⟨i', j', _, _, _, h⟩⟩ := hM.cells k1 f1 hf1
      · obtain ⟨a, b⟩ := h.2 _ _ g1
        obtain ⟨a', b'⟩ := h.2 _ _ g2
        exact d12 (by rw [a, b, a', b'])
      · rcases h _ _ g1 with ⟨a, b⟩ | ⟨a, b⟩ <;> rcases h _ _ g2 with ⟨a', b'⟩ | ⟨a', b'⟩ <;> rcases h _ _ g3 with ⟨a'', b''⟩ | ⟨a'', b''⟩ <;>
          subst a b a' b' a'' b'' <;> simp at d12 d13 d23
    · rintro st' rows' h'
      rw [h1] at h'
      simp only [Res.ok.injEq, Prod.mk.injEq] at h'
      rw [← h'.1, ← h'.2]; exact hM
  · change matchFaces per srt nNodes cells = .abort at h1
    refine ⟨by rw [h1]; simp, ?_, fun st rows h => by rw [h1] at h; cases h⟩
    rw [h1]
    refine ⟨fun _ => ?_, fun _ => rfl⟩
    rw [List.nil_append] at h6
    have hsz : ∀ (m : Nat) (c' : Cell) (row : List Nat), cells[m]? = some c' → (rows ++ [ks])[m]? = some row →
        row.length ≤ (numFaces c'.type).toNat := by
      intro m c' row hc hr
      rw [List.getElem?_append] at hr
      split at hr
      · exact Nat.le_of_eq (h4 m c' row hc hr)
      · have hm : m - rows.length = 0 := by
          have := (List.getElem?_eq_some_iff.1 hr).1; simp at this; omega
        rw [hm] at hr
        simp at hr
        have hmn : m = n := by omega
        subst hmn
        rw [h2] at hc; cases hc; subst hr; omega
    have he := h6.subset (a := e) (by simp)
    have he' := h6.subset (a := e') (by simp)
    have hbef : Before e e' := by
      have := (logRows_sorted (per := per) cells (rows ++ [ks]) 0).sublist h6
      rw [List.pairwise_cons] at this
      exact this.1 e' (by simp)
    have hpos : ∀ {x : Entry}, x ∈ logRows per 0 cells (rows ++ [ks]) → (x.i, x.j) ≠ (n, ks.length) := by
      intro x hx hxe
      simp only [Prod.mk.injEq] at hxe
      obtain ⟨_, row, hr, hk⟩ := unzip_log hsz hx
      rw [hxe.1, List.getElem?_append_right (by omega), h3, Nat.sub_self] at hr
      simp at hr; subst hr
      rw [hxe.2, List.getElem?_eq_none (Nat.le_refl _)] at hk
      cases hk
    obtain ⟨w1, _⟩ := unzip_log hsz he
    obtain ⟨w2, _⟩ := unzip_log hsz he'
    have w3 : IsSlot per cells n ks.length (slot per c ks.length) := ⟨c, h2, h5, rfl⟩
    exact ⟨e.i, e.j, e'.i, e'.j, n, ks.length, e.s, e'.s, _, w1, w2, w3, same_pos hbef, hpos he, hpos he',
      same_trans hs (hgood w1) (hgood w3) h7 (same_symm h8), h7, h8⟩

/-! ### what "the same face" means for cells with distinct nodes -/

/-- C26. If the nodes of a face are distinct, its bits fit exactly if every node has, in both slots, bits that differ
by one and the same mark: the order in which the nodes are sorted does not matter. -/
theorem same_points (srt : Sorter) (hs : Sorts srt) (a b : Slot) (ha : a.pbi.length = a.nodes.length) (hb : b.pbi.length = b.nodes.length)
    (hn : a.nodes.Nodup) (hp : a.nodes.Perm b.nodes) :
    (∃ v : Mark, ∀ (i : Nat) (x y : Mark), (sortedBits srt a)[i]? = some x → (sortedBits srt b)[i]? = some y → y = x ^^^ v) ↔
    ∃ v : Mark, ∀ (n : Int) (x y : Mark), (n, x) ∈ a.nodes.zip a.pbi → (n, y) ∈ b.nodes.zip b.pbi → y = x ^^^ v := by
  have hfa : (a.nodes.zip a.pbi).map (·.1) = a.nodes := List.map_fst_zip (by omega)
  have hfb : (b.nodes.zip b.pbi).map (·.1) = b.nodes := List.map_fst_zip (by omega)
  have p1 : ((srt (a.nodes.zip a.pbi)).map (·.1)).Perm a.nodes := by
    have := (hs.perm (a.nodes.zip a.pbi)).map (·.1)
    rw [hfa] at this; exact this
  have p2 : ((srt (b.nodes.zip b.pbi)).map (·.1)).Perm b.nodes := by
    have := (hs.perm (b.nodes.zip b.pbi)).map (·.1)
    rw [hfb] at this; exact this
  have s1 : ((srt (a.nodes.zip a.pbi)).map (·.1)).Pairwise (fun x y => x ≤ y) := List.pairwise_map.2 (hs.sorted _)
  have s2 : ((srt (b.nodes.zip b.pbi)).map (·.1)).Pairwise (fun x y => x ≤ y) := List.pairwise_map.2 (hs.sorted _)
  have heq : (srt (a.nodes.zip a.pbi)).map (·.1) = (srt (b.nodes.zip b.pbi)).map (·.1) :=
    List.Perm.eq_of_pairwise (le := fun x y => x ≤ y) (fun x y _ _ h1 h2 => Int.le_antisymm h1 h2) s1 s2
      ((p1.trans hp).trans p2.symm)
  have hnd : ((srt (a.nodes.zip a.pbi)).map (·.1)).Nodup := p1.nodup_iff.2 hn
  constructor
  · rintro ⟨v, hv⟩
    refine ⟨v, ?_⟩
    intro n x y hx hy
    obtain ⟨i, hi⟩ := List.mem_iff_getElem?.1 ((hs.perm _).mem_iff.2 hx)
    obtain ⟨i', hi'⟩ := List.mem_iff_getElem?.1 ((hs.perm _).mem_iff.2 hy)
    have e1 : ((srt (a.nodes.zip a.pbi)).map (·.1))[i]? = some n := by rw [List.getElem?_map, hi]; rfl
    have e2 : ((srt (a.nodes.zip a.pbi)).map (·.1))[i']? = some n := by rw [heq, List.getElem?_map, hi']; rfl
    obtain ⟨l1, g1⟩ := List.getElem?_eq_some_iff.1 e1
    obtain ⟨l2, g2⟩ := List.getElem?_eq_some_iff.1 e2
    have hii : i = i' := (List.Nodup.getElem_inj_iff hnd).1 (g1.trans g2.symm)
    subst hii
    exact hv i x y (by rw [sortedBits, List.getElem?_map, hi]; rfl) (by rw [sortedBits, List.getElem?_map, hi']; rfl)
  · rintro ⟨v, hv⟩
    refine ⟨v, ?_⟩
    intro i x y hx hy
    rw [sortedBits, List.getElem?_map] at hx hy
    obtain ⟨⟨n, x'⟩, h1, h2⟩ := Option.map_eq_some_iff.1 hx
    obtain ⟨⟨n', y'⟩, h3, h4⟩ := Option.map_eq_some_iff.1 hy
    simp only at h2 h4; subst h2 h4
    have e1 : ((srt (a.nodes.zip a.pbi)).map (·.1))[i]? = some n := by rw [List.getElem?_map, h1]; rfl
    have e2 : ((srt (a.nodes.zip a.pbi)).map (·.1))[i]? = some n' := by rw [heq, List.getElem?_map, h3]; rfl
    rw [e1] at e2; cases e2
    exact hv n x' y' ((hs.perm _).mem_iff.1 (List.mem_of_getElem? h1)) ((hs.perm _).mem_iff.1 (List.mem_of_getElem? h3))

/-- C26. Two slots of one cell with distinct nodes are never the same face, so a face has two different cells. -/
theorem faces_two_cells (per : Bool) (srt : Sorter) (nNodes : Nat) (c : Cell) (hv : Valid per nNodes c) (hn : c.nodes.Nodup) (j j' : Nat)
    (hj : j < (numFaces c.type).toNat) (hj' : j' < (numFaces c.type).toNat) (h : Same per srt (slot per c j) (slot per c j')) : j = j' := by
  rcases Decidable.em (j = j') with he | hne
  · exact he
  · exfalso
    obtain ⟨k, hk, hk'⟩ := faces_distinct c.type hv.known j (List.mem_range.2 hj) j' (List.mem_range.2 hj') hne
    have tj := good_table c.type hv.known j (List.mem_range.2 hj)
    have tj' := good_table c.type hv.known j' (List.mem_range.2 hj')
    have hin : ∀ {x j}, (∀ a ∈ fnodes c.type j, a < (numNodes c.type).toNat) → x ∈ loop c.type j → x < c.nodes.length := by
      intro x j hb hx
      rw [hv.nodes]; exact hb x (List.mem_of_mem_take hx)
    have hm : (c.nodes[k]?.getD 0) ∈ corners (slot per c j) := by
      simp only [corners, slot]
      rw [← List.map_take]
      exact List.mem_map.2 ⟨k, hk, rfl⟩
    have hm' := h.2.1.mem_iff.1 hm
    simp only [corners, slot] at hm'
    rw [← List.map_take, List.mem_map] at hm'
    obtain ⟨x, hx, hxe⟩ := hm'
    have lk := hin tj.2.2.2 hk
    have lx := hin tj'.2.2.2 hx
    rw [List.getElem?_eq_getElem lk, List.getElem?_eq_getElem lx, Option.getD_some, Option.getD_some] at hxe
    have := (List.Nodup.getElem_inj_iff hn).1 hxe
    subst this
    exact hk' hx

/-! ### concrete meshes -/

/-- insertion sort by node, which keeps the order of equal nodes -/
def insertByNode (x : Int × Mark) : List (Int × Mark) → List (Int × Mark)
  | [] => [x]
  | y :: ys => if x.1 ≤ y.1 then x :: y :: ys else y :: insertByNode x ys

def stable : Sorter := fun l => l.foldr insertByNode []

theorem insertByNode_perm (x : Int × Mark) : ∀ l, (insertByNode x l).Perm (x :: l) := by
  intro l
  induction l with
  | nil => exact .refl _
  | cons y ys ih =>
    rw [insertByNode]
    split
    · exact .refl _
    · exact (ih.cons y).trans (.swap x y ys)

theorem stable_sorts : Sorts stable := by
  constructor
  · intro l
    induction l with
    | nil => exact .refl _
    | cons x xs ih => exact (insertByNode_perm x _).trans (ih.cons x)
  · intro l
    induction l with
    | nil => exact .nil
    | cons x xs ih =>
      show (insertByNode x (stable xs)).Pairwise _
      generalize stable xs = l at ih
      induction l with
      | nil => exact List.pairwise_singleton _ _
      | cons y ys ih' =>
        rw [List.pairwise_cons] at ih
        rw [insertByNode]
        split
        · rename_i h
          refine List.pairwise_cons.2 ⟨?_, List.pairwise_cons.2 ih⟩
          intro z hz
          rcases List.mem_cons.1 hz with rfl | hz
          · exact h
          · exact Int.le_trans h (ih.1 z hz)
        · rename_i h
          refine List.pairwise_cons.2 ⟨?_, ih' ih.2⟩
          intro z hz
          rcases List.mem_cons.1 ((insertByNode_perm x ys).mem_iff.1 hz) with rfl | hz
          · omega
          · exact ih.1 z hz

/-- a necessary condition for two slots to be the same face -/
def maybeSame (per : Bool) (srt : Sorter) (a b : Slot) : Bool :=
  decide (a.type = b.type) && (corners a).isPerm (corners b) && (!per ||
    ((sortedBits srt a).zip (sortedBits srt b)).all fun p => ((sortedBits srt a).zip (sortedBits srt b)).all fun q =>
      decide (p.1 ^^^ p.2 = q.1 ^^^ q.2))

theorem maybeSame_of_same {per : Bool} {srt : Sorter} {a b : Slot} (h : Same per srt a b) : maybeSame per srt a b = true := by
  obtain ⟨h1, h2, h3⟩ := h
  simp only [maybeSame, Bool.and_eq_true, Bool.or_eq_true, Bool.not_eq_true', decide_eq_true_eq, List.all_eq_true]
  refine ⟨⟨h1, List.isPerm_iff.2 h2⟩, ?_⟩
  cases per with
  | false => exact Or.inl rfl
  | true =>
    right
    obtain ⟨v, hv⟩ := h3 rfl
    have hz : ∀ p ∈ (sortedBits srt a).zip (sortedBits srt b), p.1 ^^^ p.2 = v := by
      intro p hp
      obtain ⟨i, hi⟩ := List.mem_iff_getElem?.1 hp
      rw [List.getElem?_zip_eq_some] at hi
      rw [hv i _ _ hi.1 hi.2, ← BitVec.xor_assoc, BitVec.xor_self, BitVec.zero_xor]
    intro p hp q hq
    rw [hz p hp, hz q hq]

/-- all slots, with their places -/
def allSlots (per : Bool) (cells : List Cell) : List ((Nat × Nat) × Slot) :=
  (List.range cells.length).flatMap fun i => match cells[i]? with
    | some c => (List.range (numFaces c.type).toNat).map fun j => ((i, j), slot per c j)
    | none => []

theorem mem_allSlots {per : Bool} {cells : List Cell} {i j : Nat} {s : Slot} (h : IsSlot per cells i j s) : ((i, j), s) ∈ allSlots per cells := by
  obtain ⟨c, hc, hj, rfl⟩ := h
  refine List.mem_flatMap.2 ⟨i, List.mem_range.2 (List.getElem?_eq_some_iff.1 hc).1, ?_⟩
  rw [hc]
  exact List.mem_map.2 ⟨j, List.mem_range.2 hj, rfl⟩

def noTriple (per : Bool) (srt : Sorter) (cells : List Cell) : Bool :=
  (allSlots per cells).all fun a => (allSlots per cells).all fun b => a.1 == b.1 || !maybeSame per srt a.2 b.2 ||
    (allSlots per cells).all fun c => a.1 == c.1 || b.1 == c.1 || !maybeSame per srt a.2 c.2

theorem noTriple_spec {per : Bool} {srt : Sorter} {cells : List Cell} (h : noTriple per srt cells = true) : ¬ Triple per srt cells := by
  rintro ⟨i1, j1, i2, j2, i3, j3, s1, s2, s3, p1, p2, p3, d12, d13, d23, q12, q13, q23⟩
  simp only [noTriple, List.all_eq_true] at h
  have h1 := h _ (mem_allSlots p1) _ (mem_allSlots p2)
  simp only [maybeSame_of_same q12, Bool.or_eq_true, beq_iff_eq, Bool.not_true, Bool.false_eq_true, or_false, List.all_eq_true] at h1
  rcases h1 with h1 | h1
  · exact d12 h1
  · have h2 := h1 _ (mem_allSlots p3)
    simp only [maybeSame_of_same q13, Bool.or_eq_true, beq_iff_eq, Bool.not_true, Bool.false_eq_true, or_false] at h2
    rcases h2 with h2 | h2
    · exact d13 h2
    · exact d23 h2

/-- the cells run to the end -/
theorem matchFaces_runs {per : Bool} {srt : Sorter} (hs : Sorts srt) {nNodes : Nat} {cells : List Cell} (hv : ∀ c ∈ cells, Valid per nNodes c)
    (h : noTriple per srt cells = true) : ∃ st rows, matchFaces per srt nNodes cells = .ok (st, rows) ∧ Matching per srt cells st.faces rows := by
  obtain ⟨h1, h2, h3⟩ := faces_match per srt hs nNodes cells hv
  cases hm : matchFaces per srt nNodes cells with
  | ok p => obtain ⟨st, rows⟩ := p; exact ⟨st, rows, rfl, h3 st rows hm⟩
  | ub => exact absurd hm h1
  | abort => exact absurd (h2.1 hm) (noTriple_spec h)

/-- three cells of a periodic strip, two nodes high and three cells round: nodes 0..2 below, 3..5 above -/
def strip : List Cell :=
  [⟨.quad4, [0, 1, 4, 3], [0#8, 0#8, 0#8, 0#8]⟩, ⟨.quad4, [1, 2, 5, 4], [0#8, 0#8, 0#8, 0#8]⟩,
   ⟨.quad4, [2, 0, 3, 5], [0#8, 1#8, 1#8, 0#8]⟩]

theorem strip_valid : ∀ c ∈ strip, Valid true 6 c := by
  intro c hc
  simp only [strip, List.mem_cons, List.not_mem_nil, or_false] at hc
  rcases hc with rfl | rfl | rfl <;> exact ⟨by decide, by decide, by decide, by decide⟩

/-- C26 is about something: the strip closes over the periodic face, cells 2 and 0 share it although their bits differ -/
theorem strip_closes : ∃ st rows, matchFaces true stable 6 strip = .ok (st, rows) ∧
    ∃ k f, Gives rows 2 1 k ∧ Gives rows 0 3 k ∧ st.faces[k]? = some f ∧ f.first = 0 ∧ f.second = 2 ∧
      (slot true strip[2] 1).pbi ≠ (slot true strip[0] 3).pbi := by
  obtain ⟨st, rows, h1, hM⟩ := matchFaces_runs stable_sorts strip_valid (by decide +kernel)
  refine ⟨st, rows, h1, ?_⟩
  have p0 : IsSlot true strip 0 3 (slot true strip[0] 3) := ⟨_, rfl, by decide, rfl⟩
  have p2 : IsSlot true strip 2 1 (slot true strip[2] 1) := ⟨_, rfl, by decide, rfl⟩
  obtain ⟨k, f, g0, hf, _⟩ := hM.given _ _ _ p0
  obtain ⟨k', f', g2, _, _⟩ := hM.given _ _ _ p2
  have hsame : Same true stable (slot true strip[0] 3) (slot true strip[2] 1) := by
    refine ⟨by decide, by decide, fun _ => ⟨1#8, ?_⟩⟩
    intro i x y hx hy
    have e1 : sortedBits stable (slot true strip[0] 3) = [0#8, 0#8] := by decide
    have e2 : sortedBits stable (slot true strip[2] 1) = [1#8, 1#8] := by decide
    rw [e1] at hx; rw [e2] at hy
    match i with
    | 0 => simp at hx hy; subst hx hy; rfl
    | 1 => simp at hx hy; subst hx hy; rfl
    | n + 2 => simp at hx
  have hk := (hM.iff _ _ _ _ _ _ _ _ p0 p2 g0 g2).2 hsame
  subst hk
  obtain ⟨i, j, _, _, hfi, h | ⟨i', j', hse, he, _, h⟩⟩ := hM.cells k f hf
  · have := h.2 _ _ g0; have := h.2 _ _ g2; omega
  · refine ⟨k, f, g2, g0, hf, ?_, ?_, by decide⟩
    · rcases h _ _ g0 with a | a <;> rcases h _ _ g2 with b | b <;> rcases he with c | c <;> omega
    · rcases h _ _ g0 with a | a <;> rcases h _ _ g2 with b | b <;> rcases he with c | c <;> omega

/-! ### a periodic mesh that is one cell thick -/

/-- the point `(x, y, z)` of a mesh that is periodic in `y` and one cell thick: the points with `y = 1` are the nodes with
`y = 0`, marked -/
def thinPoint (x y z : Nat) : Int × Mark := ((x : Int) + 3 * z, if y = 1 then 1#8 else 0#8)

/-- the cell between `x` and `x + 1`, its nodes in the usual order -/
def thinCell (x : Nat) : Cell :=
  let l := [thinPoint x 0 0, thinPoint (x + 1) 0 0, thinPoint (x + 1) 1 0, thinPoint x 1 0,
    thinPoint x 0 1, thinPoint (x + 1) 0 1, thinPoint (x + 1) 1 1, thinPoint x 1 1]
  ⟨.hex8, l.map (·.1), l.map (·.2)⟩

def thin : List Cell := [thinCell 0, thinCell 1]

theorem thin_valid : ∀ c ∈ thin, Valid true 6 c := by
  intro c hc
  simp only [thin, List.mem_cons, List.not_mem_nil, or_false] at hc
  rcases hc with rfl | rfl <;> exact ⟨by decide, by decide, by decide, by decide⟩

/-- C26, the limit of the claim. In a mesh that is one cell thick in a periodic direction a face can list a node
twice, and sorting by node alone does not pair up the bits.  The two cells below share the face at `x = 1` (the
same four points), but they are given two different faces. -/
theorem thin_periodic_not_shared : ∃ st rows, matchFaces true stable 6 thin = .ok (st, rows) ∧
    ((slot true (thinCell 0) 2).nodes.zip (slot true (thinCell 0) 2).pbi).Perm
      ((slot true (thinCell 1) 4).nodes.zip (slot true (thinCell 1) 4).pbi) ∧
    ∀ k k', Gives rows 0 2 k → Gives rows 1 4 k' → k ≠ k' := by
  obtain ⟨st, rows, h1, hM⟩ := matchFaces_runs stable_sorts thin_valid (by decide +kernel)
  refine ⟨st, rows, h1, by decide, ?_⟩
  intro k k' g g' hk
  have := (hM.iff _ _ _ _ _ _ _ _ ⟨thinCell 0, rfl, by decide, rfl⟩ ⟨thinCell 1, rfl, by decide, rfl⟩ g g').1 hk
  exact absurd (maybeSame_of_same this) (by decide +kernel)

end DNDSR.Faces
