import Verif.Spec.Faces
import Verif.Props.Elements
import Verif.Props.Bits
import Verif.Proof.IndexMapping

/-! Helper lemmas for `Verif.Props.Faces`. -/

namespace DNDSR.Faces

open DNDSR.Elem DNDSR.IMap DNDSR.Part
open DNDSR.Bits (Mark mxor collabLoop collaborative_iff isCollaborative)

/-! ### slots -/

theorem slotOf_eq {per : Bool} {nNodes : Nat} {c : Cell} (hv : Valid per nNodes c) {j : Nat} (hj : j < (numFaces c.type).toNat) :
    slotOf per c j = .ok (slot per c j) := by
  have hjf : j ∈ faces c.type := List.mem_range.2 hj
  rw [slotOf, face_extract c.type hv.known j hjf c.nodes hv.nodes, Res.ok_bind]
  cases per with
  | false => rfl
  | true =>
    simp only
    rw [face_extract c.type hv.known j hjf c.pbi (hv.pbi rfl), Res.ok_bind]
    rfl

/-- what is known of a slot of a valid cell -/
structure Good (per : Bool) (nNodes : Nat) (s : Slot) : Prop where
  verts : 0 < (numVertices s.type).toNat
  len : s.nodes.length = (numNodes s.type).toNat
  le : (numVertices s.type).toNat ≤ (numNodes s.type).toNat
  bits : per = true → s.pbi.length = s.nodes.length
  range : ∀ q ∈ s.nodes, 0 ≤ q ∧ q < nNodes

theorem good_table (t : ElemType) (ht : t ≠ .unknown) : ∀ j ∈ faces t,
    0 < (numVertices (faceType t j)).toNat ∧ (fnodes t j).length = (numNodes (faceType t j)).toNat ∧
    (numVertices (faceType t j)).toNat ≤ (numNodes (faceType t j)).toNat ∧ ∀ a ∈ fnodes t j, a < (numNodes t).toNat := by
  cases t <;> first | exact absurd rfl ht | decide +kernel

theorem slot_good {per : Bool} {nNodes : Nat} {c : Cell} (hv : Valid per nNodes c) {j : Nat} (hj : j < (numFaces c.type).toNat) :
    Good per nNodes (slot per c j) := by
  obtain ⟨h1, h2, h3, h4⟩ := good_table c.type hv.known j (List.mem_range.2 hj)
  refine ⟨h1, by simp [slot, h2], h3, ?_, ?_⟩
  · rintro rfl; simp [slot]
  · intro q hq
    simp only [slot, List.mem_map] at hq
    obtain ⟨a, ha, rfl⟩ := hq
    have := h4 a ha
    have hl : a < c.nodes.length := by rw [hv.nodes]; exact this
    rw [List.getElem?_eq_getElem hl]
    exact hv.range _ (List.getElem_mem hl)

theorem sortIdx_eq_iff (a b : List Int) : sortIdx a = sortIdx b ↔ a.Perm b := by
  constructor
  · intro h
    exact (sortIdx_perm a).symm.trans (h ▸ sortIdx_perm b)
  · intro h
    exact List.Perm.eq_of_pairwise (le := fun x y => x ≤ y) (fun x y _ _ h1 h2 => Int.le_antisymm h1 h2) (sortIdx_sorted a) (sortIdx_sorted b)
      (((sortIdx_perm a).trans h).trans (sortIdx_perm b).symm)

theorem sortedVerts_eq {per : Bool} {nNodes : Nat} {s : Slot} (h : Good per nNodes s) :
    sortedVerts s.type s.nodes = .ok (sortIdx (corners s)) := by
  have := h.len; have := h.le
  rw [sortedVerts, if_pos (by omega)]; rfl

theorem corners_range {per : Bool} {nNodes : Nat} {s : Slot} (h : Good per nNodes s) :
    ∀ q ∈ sortIdx (corners s), 0 ≤ q ∧ q < nNodes := by
  intro q hq
  exact h.range q (List.mem_of_mem_take ((sortIdx_perm _).mem_iff.1 hq))

theorem corners_ne {per : Bool} {nNodes : Nat} {s : Slot} (h : Good per nNodes s) : ∃ v vs, sortIdx (corners s) = v :: vs := by
  have h1 := h.len; have h2 := h.le; have h3 := h.verts
  have : (sortIdx (corners s)).length ≠ 0 := by
    rw [(sortIdx_perm _).length_eq, corners, List.length_take]; omega
  cases hs : sortIdx (corners s) with
  | nil => rw [hs] at this; simp at this
  | cons v vs => exact ⟨v, vs, rfl⟩

/-! ### the relation -/

theorem same_refl {per : Bool} {srt : Sorter} (a : Slot) : Same per srt a a := by
  refine ⟨rfl, .refl _, fun _ => ⟨0#8, ?_⟩⟩
  intro i x y h1 h2
  rw [h1] at h2; cases h2; simp

theorem same_symm {per : Bool} {srt : Sorter} {a b : Slot} (h : Same per srt a b) : Same per srt b a := by
  obtain ⟨h1, h2, h3⟩ := h
  refine ⟨h1.symm, h2.symm, fun hp => ?_⟩
  obtain ⟨v, hv⟩ := h3 hp
  refine ⟨v, fun i x y hx hy => ?_⟩
  rw [hv i y x hy hx, BitVec.xor_assoc, BitVec.xor_self, BitVec.xor_zero]

theorem sortedBits_length {srt : Sorter} (hs : Sorts srt) {per : Bool} {nNodes : Nat} {s : Slot} (h : Good per nNodes s) (hp : per = true) :
    (sortedBits srt s).length = (numNodes s.type).toNat := by
  rw [sortedBits, List.length_map, (hs.perm _).length_eq, List.length_zip, h.bits hp, Nat.min_self, h.len]

theorem same_trans {per : Bool} {nNodes : Nat} {srt : Sorter} (hs : Sorts srt) {a b c : Slot} (ha : Good per nNodes a) (hb : Good per nNodes b)
    (h : Same per srt a b) (h' : Same per srt b c) : Same per srt a c := by
  obtain ⟨h1, h2, h3⟩ := h
  obtain ⟨k1, k2, k3⟩ := h'
  refine ⟨h1.trans k1, h2.trans k2, fun hp => ?_⟩
  obtain ⟨v, hv⟩ := h3 hp
  obtain ⟨w, hw⟩ := k3 hp
  refine ⟨v ^^^ w, fun i x z hx hz => ?_⟩
  have hi := (List.getElem?_eq_some_iff.1 hx).1
  rw [sortedBits_length hs ha hp, h1, ← sortedBits_length hs hb hp] at hi
  have hy : (sortedBits srt b)[i]? = some (sortedBits srt b)[i] := List.getElem?_eq_getElem hi
  rw [hw i _ z hy hz, hv i x _ hx hy, BitVec.xor_assoc]

/-- the comparison decides the relation -/
theorem fits_spec {per : Bool} {nNodes : Nat} {srt : Sorter} (hs : Sorts srt) {s : Slot} {f : Face} (hg : Good per nNodes s)
    (hf : Good per nNodes f.slot) : ∃ b, fits per srt s (sortIdx (corners s)) f = .ok b ∧ (b = true ↔ Same per srt s f.slot) := by
  unfold fits
  by_cases ht : f.slot.type = s.type
  · rw [if_neg (by simp [ht])]
    have hov : sortedVerts s.type f.slot.nodes = .ok (sortIdx (corners f.slot)) := by
      rw [← ht]; exact sortedVerts_eq hf
    rw [hov, Res.ok_bind]
    by_cases hc : sortIdx (corners s) = sortIdx (corners f.slot)
    · rw [if_pos hc]
      have hp := (sortIdx_eq_iff _ _).1 hc
      cases hper : per with
      | false => exact ⟨true, by simp, by simp [Same, ht, hp]⟩
      | true =>
        rw [if_pos rfl]
        have l1 := sortedBits_length hs hg hper
        have l2 := sortedBits_length hs hf hper
        have hll : (sortedBits srt s).length = (sortedBits srt f.slot).length := by rw [l1, l2, ht]
        obtain ⟨r, e1, e2⟩ := (collaborative_iff (sortedBits srt s) (sortedBits srt f.slot)).2 hll
        have hlen := hg.len
        have hle := hg.le
        have hvp := hg.verts
        refine ⟨r, ?_, ?_⟩
        · unfold collaborating
          change (match sortedBits srt s, sortedBits srt f.slot with
            | a :: as, b :: bs => (do
              Res.assert (bs.length = as.length)
              .ok (collabLoop (mxor a b) as bs) : Res Bool)
            | _, _ => .abort) = .ok r
          unfold isCollaborative at e1
          cases ha : sortedBits srt s with
          | nil => rw [ha] at l1; simp at l1; omega
          | cons a as =>
            cases hb : sortedBits srt f.slot with
            | nil => rw [ha, hb] at hll; simp at hll
            | cons b bs =>
              rw [ha, hb] at hll e1
              rw [Res.assert_true _ hll, Res.ok_bind] at e1
              simp only
              rw [Res.assert_true _ (by simpa using hll.symm), Res.ok_bind]
              exact e1
        · rw [e2]
          simp [Same, ht, hp]
    · rw [if_neg hc]
      exact ⟨false, rfl, by
        simp only [Bool.false_eq_true, false_iff]
        rintro ⟨_, h, _⟩
        exact hc ((sortIdx_eq_iff _ _).2 h)⟩
  · rw [if_pos ht]
    exact ⟨false, rfl, by
      simp only [Bool.false_eq_true, false_iff]
      rintro ⟨h, _⟩
      exact ht h.symm⟩

/-! ### searching -/

/-- the faces and the table from nodes to faces agree -/
structure Tab (per : Bool) (nNodes : Nat) (st : St) : Prop where
  len : st.n2f.length = nNodes
  good : ∀ f ∈ st.faces, Good per nNodes f.slot
  mem : ∀ (v : Nat) (row : List Nat) (k : Nat), st.n2f[v]? = some row → (k ∈ row ↔ ∃ f, st.faces[k]? = some f ∧ (v : Int) ∈ corners f.slot)

theorem searchRow_spec {per : Bool} {nNodes : Nat} {srt : Sorter} (hs : Sorts srt) {faces : List Face} {s : Slot} (hg : Good per nNodes s)
    (hf : ∀ f ∈ faces, Good per nNodes f.slot) : ∀ (ks : List Nat) (found : Option Nat), (∀ k ∈ ks, k < faces.length) →
    (∀ k, found = some k → ∃ f, faces[k]? = some f ∧ Same per srt s f.slot) →
    ∃ r, searchRow per srt faces s (sortIdx (corners s)) found ks = .ok r ∧
      (∀ k, r = some k → ∃ f, faces[k]? = some f ∧ Same per srt s f.slot) ∧
      (r = none → found = none ∧ ∀ k ∈ ks, ∀ f, faces[k]? = some f → ¬ Same per srt s f.slot) := by
  intro ks
  induction ks with
  | nil => intro found _ h; exact ⟨found, rfl, h, fun h => ⟨h, by simp⟩⟩
  | cons k ks ih =>
    intro found hk h
    have hkl := hk k (by simp)
    have hfk : faces[k]? = some faces[k] := List.getElem?_eq_getElem hkl
    obtain ⟨b, hb1, hb2⟩ := fits_spec hs hg (hf _ (List.getElem_mem hkl))
    obtain ⟨r, h1, h2, h3⟩ := ih (if b then some k else found) (fun x hx => hk x (by simp [hx])) (by
      intro k' hk'
      cases b with
      | true => simp at hk'; subst hk'; exact ⟨_, hfk, hb2.1 rfl⟩
      | false => simp at hk'; exact h k' hk')
    refine ⟨r, ?_, h2, ?_⟩
    · rw [searchRow, (idx_ok_iff _ _ _).2 hfk, Res.ok_bind, hb1, Res.ok_bind]; exact h1
    · intro hr
      obtain ⟨a1, a2⟩ := h3 hr
      cases b with
      | true => simp at a1
      | false =>
        simp at a1
        refine ⟨a1, ?_⟩
        intro k' hk' f hfe
        rcases List.mem_cons.1 hk' with rfl | hk'
        · rw [hfk] at hfe; cases hfe
          intro hsame
          have := hb2.2 hsame
          simp at this
        · exact a2 k' hk' f hfe

theorem at64_eq {α : Type} {l : List α} {v : Int} (h0 : 0 ≤ v) (h1 : v < l.length) : ∃ x, at64 l v = .ok x ∧ l[v.toNat]? = some x := by
  have : v.toNat < l.length := by omega
  exact ⟨l[v.toNat], by rw [at64, if_pos h0]; exact (idx_ok_iff _ _ _).2 (List.getElem?_eq_getElem this), List.getElem?_eq_getElem this⟩

theorem search_spec {per : Bool} {nNodes : Nat} {srt : Sorter} (hs : Sorts srt) {st : St} (ht : Tab per nNodes st) {s : Slot}
    (hg : Good per nNodes s) : ∀ (vs : List Int) (found : Option Nat), (∀ v ∈ vs, 0 ≤ v ∧ v < nNodes) →
    (∀ k, found = some k → ∃ f, st.faces[k]? = some f ∧ Same per srt s f.slot) →
    ∃ r, search per srt st s (sortIdx (corners s)) found vs = .ok r ∧
      (∀ k, r = some k → ∃ f, st.faces[k]? = some f ∧ Same per srt s f.slot) ∧
      (r = none → found = none ∧ ∀ v ∈ vs, ∀ (k : Nat) (f : Face), st.faces[k]? = some f → v ∈ corners f.slot → ¬ Same per srt s f.slot) := by
  intro vs
  induction vs with
  | nil => intro found _ h; exact ⟨found, rfl, h, fun h => ⟨h, by simp⟩⟩
  | cons v vs ih =>
    intro found hv h
    cases found with
    | some k =>
      obtain ⟨r, h1, h2, h3⟩ := ih (some k) (fun x hx => hv x (by simp [hx])) h
      exact ⟨r, by rw [search]; exact h1, h2, fun hr => by have := (h3 hr).1; cases this⟩
    | none =>
      obtain ⟨v0, v1⟩ := hv v (by simp)
      obtain ⟨row, e1, e2⟩ := at64_eq (l := st.n2f) v0 (by rw [ht.len]; exact v1)
      have hmem := fun k => ht.mem v.toNat row k e2
      obtain ⟨r1, a1, a2, a3⟩ := searchRow_spec hs hg ht.good row none (by
        intro k hk
        obtain ⟨f, hf, _⟩ := (hmem k).1 hk
        exact (List.getElem?_eq_some_iff.1 hf).1) (by simp)
      obtain ⟨r, h1, h2, h3⟩ := ih r1 (fun x hx => hv x (by simp [hx])) a2
      refine ⟨r, by rw [search, e1, Res.ok_bind, a1, Res.ok_bind, h1], h2, ?_⟩
      intro hr
      obtain ⟨b1, b2⟩ := h3 hr
      refine ⟨rfl, ?_⟩
      intro x hx k f hf hc
      rcases List.mem_cons.1 hx with rfl | hx
      · exact (a3 b1).2 k ((hmem k).2 ⟨f, hf, by rw [Int.toNat_of_nonneg v0]; exact hc⟩) f hf
      · exact b2 x hx k f hf hc

/-- the search finds a face that is the same, and none exactly if there is none -/
theorem search_total {per : Bool} {nNodes : Nat} {srt : Sorter} (hs : Sorts srt) {st : St} (ht : Tab per nNodes st) {s : Slot}
    (hg : Good per nNodes s) : ∃ r, search per srt st s (sortIdx (corners s)) none (sortIdx (corners s)) = .ok r ∧
      (∀ k, r = some k → ∃ f, st.faces[k]? = some f ∧ Same per srt s f.slot) ∧
      (r = none → ∀ (k : Nat) (f : Face), st.faces[k]? = some f → ¬ Same per srt s f.slot) := by
  obtain ⟨r, h1, h2, h3⟩ := search_spec hs ht hg (sortIdx (corners s)) none (corners_range hg) (by simp)
  refine ⟨r, h1, h2, ?_⟩
  intro hr k f hf hsame
  obtain ⟨v, vs, hv⟩ := corners_ne hg
  refine (h3 hr).2 v (by rw [hv]; simp) k f hf ?_ hsame
  have hm : v ∈ sortIdx (corners s) := by rw [hv]; simp
  exact hsame.2.1.mem_iff.1 ((sortIdx_perm _).mem_iff.1 hm)

theorem pushFace_spec (k : Nat) : ∀ (vs : List Int) (n2f : List (List Nat)), (∀ v ∈ vs, 0 ≤ v ∧ v < n2f.length) →
    ∃ n2f', pushFace k n2f vs = .ok n2f' ∧ n2f'.length = n2f.length ∧
      ∀ (v : Nat) (row' : List Nat), n2f'[v]? = some row' → ∃ row, n2f[v]? = some row ∧
        ∀ x, x ∈ row' ↔ x ∈ row ∨ (x = k ∧ (v : Int) ∈ vs) := by
  intro vs
  induction vs with
  | nil => intro n2f _; exact ⟨n2f, rfl, rfl, fun v row h => ⟨row, h, by simp⟩⟩
  | cons v vs ih =>
    intro n2f h
    obtain ⟨v0, v1⟩ := h v (by simp)
    obtain ⟨row, e1, e2⟩ := at64_eq (l := n2f) v0 v1
    obtain ⟨n2f', h1, h2, h3⟩ := ih (n2f.set v.toNat (row ++ [k])) (by
      intro x hx; rw [List.length_set]; exact h x (by simp [hx]))
    refine ⟨n2f', by rw [pushFace, e1, Res.ok_bind, h1], by rw [h2, List.length_set], ?_⟩
    intro u row' hu
    obtain ⟨r, a1, a2⟩ := h3 u row' hu
    rw [List.getElem?_set] at a1
    by_cases huv : v.toNat = u
    · subst huv
      rw [if_pos rfl, if_pos (by omega)] at a1
      simp only [Option.some.injEq] at a1
      subst a1
      refine ⟨row, e2, fun x => ?_⟩
      rw [a2, List.mem_append, List.mem_singleton, List.mem_cons]
      have : ((v.toNat : Nat) : Int) = v := by omega
      simp only [this, true_or, and_true]
      constructor
      · rintro ((h | h) | ⟨h, _⟩)
        · exact Or.inl h
        · exact Or.inr h
        · exact Or.inr h
      · rintro (h | h)
        · exact Or.inl (Or.inl h)
        · exact Or.inl (Or.inr h)
    · rw [if_neg huv] at a1
      refine ⟨r, a1, fun x => ?_⟩
      rw [a2, List.mem_cons]
      have : (u : Int) ≠ v := by omega
      simp [this]

/-! ### the invariant -/

/-- a processed slot: cell, slot number, slot, and the face it was given -/
structure Entry where
  i : Nat
  j : Nat
  s : Slot
  k : Nat

/-- what holds after the slots of `log` have been processed, in this order -/
structure Inv (per : Bool) (nNodes : Nat) (srt : Sorter) (log : List Entry) (st : St) : Prop extends Tab per nNodes st where
  given : ∀ e ∈ log, Good per nNodes e.s ∧ ∃ f, st.faces[e.k]? = some f ∧ Same per srt e.s f.slot
  apart : ∀ (k k' : Nat) (f f' : Face), st.faces[k]? = some f → st.faces[k']? = some f' → Same per srt f.slot f'.slot → k = k'
  owners : ∀ (k : Nat) (f : Face), st.faces[k]? = some f →
    (∃ e, log.filter (fun e => e.k == k) = [e] ∧ e.s = f.slot ∧ f.first = e.i ∧ f.second = unInit) ∨
    (∃ e e', log.filter (fun e => e.k == k) = [e, e'] ∧ e.s = f.slot ∧ f.first = e.i ∧ f.second = e'.i)

theorem inv_init (per : Bool) (nNodes : Nat) (srt : Sorter) : Inv per nNodes srt [] ⟨[], List.replicate nNodes []⟩ := by
  refine ⟨⟨by simp, by simp, ?_⟩, by simp, by simp, by simp⟩
  intro v row k h
  have := List.mem_of_getElem? h
  rw [List.mem_replicate] at this
  simp [this.2]

theorem filter_append_one (log : List Entry) (e : Entry) (k : Nat) :
    (log ++ [e]).filter (fun e => e.k == k) = log.filter (fun e => e.k == k) ++ (if e.k = k then [e] else []) := by
  rw [List.filter_append]
  congr 1
  by_cases h : e.k = k <;> simp [h]

theorem addSlot_spec {per : Bool} {nNodes : Nat} {srt : Sorter} (hs : Sorts srt) {log : List Entry} {st : St}
    (hI : Inv per nNodes srt log st) (i j : Nat) {s : Slot} (hg : Good per nNodes s) :
    (∃ st' k, addSlot per srt i s st = .ok (st', k) ∧ Inv per nNodes srt (log ++ [⟨i, j, s, k⟩]) st') ∨
    (addSlot per srt i s st = .abort ∧ ∃ e e', List.Sublist [e, e'] log ∧ Same per srt e.s s ∧ Same per srt e'.s s) := by
  obtain ⟨r, h1, h2, h3⟩ := search_total hs hI.toTab hg
  unfold addSlot
  rw [sortedVerts_eq hg, Res.ok_bind, h1, Res.ok_bind]
  cases r with
  | none =>
    left
    obtain ⟨n2f', p1, p2, p3⟩ := pushFace_spec st.faces.length (sortIdx (corners s)) st.n2f (by rw [hI.len]; exact corners_range hg)
    simp only
    rw [p1, Res.ok_bind]
    refine ⟨_, _, rfl, ?_⟩
    have hno := h3 rfl
    have hget : ∀ (k : Nat) (f : Face), (st.faces ++ [⟨s, (i : Int), unInit⟩])[k]? = some f →
        (st.faces[k]? = some f) ∨ (k = st.faces.length ∧ f = ⟨s, (i : Int), unInit⟩) := by
      intro k f hk
      rw [List.getElem?_append] at hk
      split at hk
      · exact Or.inl hk
      · have : k - st.faces.length = 0 := by
          have := (List.getElem?_eq_some_iff.1 hk).1; simp at this; omega
        rw [this] at hk; simp at hk
        exact Or.inr ⟨by omega, hk.symm⟩
    refine ⟨⟨by rw [p2]; exact hI.len, ?_, ?_⟩, ?_, ?_, ?_⟩
    · intro f hf
      rcases List.mem_append.1 hf with hf | hf
      · exact hI.good f hf
      · rw [List.mem_singleton] at hf; subst hf; exact hg
    · intro v row' k hv
      obtain ⟨row, a1, a2⟩ := p3 v row' hv
      rw [a2, hI.mem v row k a1, (sortIdx_perm _).mem_iff]
      constructor
      · rintro (⟨f, hf, hc⟩ | ⟨rfl, hc⟩)
        · refine ⟨f, ?_, hc⟩
          rw [List.getElem?_append_left (List.getElem?_eq_some_iff.1 hf).1]; exact hf
        · exact ⟨⟨s, (i : Int), unInit⟩, by simp, hc⟩
      · rintro ⟨f, hf, hc⟩
        rcases hget k f hf with hf | ⟨rfl, rfl⟩
        · exact Or.inl ⟨f, hf, hc⟩
        · exact Or.inr ⟨rfl, hc⟩
    · intro e he
      rcases List.mem_append.1 he with he | he
      · obtain ⟨g1, f, hf, hsame⟩ := hI.given e he
        refine ⟨g1, f, ?_, hsame⟩
        rw [List.getElem?_append_left (List.getElem?_eq_some_iff.1 hf).1]; exact hf
      · rw [List.mem_singleton] at he; subst he
        exact ⟨hg, ⟨s, (i : Int), unInit⟩, by simp, same_refl s⟩
    · intro k k' f f' hk hk' hsame
      rcases hget k f hk with hk | ⟨rfl, rfl⟩ <;> rcases hget k' f' hk' with hk' | ⟨rfl, rfl⟩
      · exact hI.apart k k' f f' hk hk' hsame
      · exact absurd (same_symm hsame) (hno k f hk)
      · exact absurd hsame (hno k' f' hk')
      · rfl
    · intro k f hk
      rw [filter_append_one]
      rcases hget k f hk with hk | ⟨rfl, rfl⟩
      · have hlt := (List.getElem?_eq_some_iff.1 hk).1
        rw [if_neg (by simp only; omega), List.append_nil]
        exact hI.owners k f hk
      · left
        rw [if_pos rfl]
        refine ⟨⟨i, j, s, st.faces.length⟩, ?_, rfl, rfl, rfl⟩
        rw [List.filter_eq_nil_iff.2, List.nil_append]
        intro e he
        obtain ⟨_, f, hf, _⟩ := hI.given e he
        have hlt := (List.getElem?_eq_some_iff.1 hf).1
        simp only [beq_iff_eq]; omega
  | some k =>
    obtain ⟨f, hf, hsame⟩ := h2 k rfl
    simp only
    rw [(idx_ok_iff _ _ _).2 hf, Res.ok_bind]
    have hkl := (List.getElem?_eq_some_iff.1 hf).1
    have hfg := hI.good f (List.mem_of_getElem? hf)
    by_cases hu : f.second = unInit
    · left
      rw [Res.assert_true _ hu, Res.ok_bind]
      refine ⟨_, _, rfl, ?_⟩
      have hget : ∀ (k' : Nat) (f' : Face), (st.faces.set k { f with second := (i : Int) })[k']? = some f' →
          (k' ≠ k ∧ st.faces[k']? = some f') ∨ (k' = k ∧ f' = { f with second := (i : Int) }) := by
        intro k' f' hk'
        rw [List.getElem?_set] at hk'
        by_cases h : k = k'
        · subst h
          rw [if_pos rfl, if_pos hkl] at hk'
          exact Or.inr ⟨rfl, (Option.some.inj hk').symm⟩
        · rw [if_neg h] at hk'
          exact Or.inl ⟨Ne.symm h, hk'⟩
      have hset : ∀ (k' : Nat) (f' : Face), st.faces[k']? = some f' →
          ∃ f'', (st.faces.set k { f with second := (i : Int) })[k']? = some f'' ∧ f''.slot = f'.slot := by
        intro k' f' hk'
        by_cases h : k = k'
        · subst h
          rw [hf] at hk'; cases hk'
          exact ⟨{ f with second := (i : Int) }, by rw [List.getElem?_set, if_pos rfl, if_pos hkl], rfl⟩
        · exact ⟨f', by rw [List.getElem?_set, if_neg h]; exact hk', rfl⟩
      have hslot : ∀ (k' : Nat) (f' : Face), (st.faces.set k { f with second := (i : Int) })[k']? = some f' →
          ∃ f'', st.faces[k']? = some f'' ∧ f''.slot = f'.slot := by
        intro k' f' hk'
        rcases hget k' f' hk' with ⟨_, h⟩ | ⟨rfl, rfl⟩
        · exact ⟨f', h, rfl⟩
        · exact ⟨f, hf, rfl⟩
      refine ⟨⟨hI.len, ?_, ?_⟩, ?_, ?_, ?_⟩
      · intro f' hf'
        obtain ⟨k', hk'⟩ := List.mem_iff_getElem?.1 hf'
        obtain ⟨f'', h1, h2⟩ := hslot k' f' hk'
        rw [← h2]; exact hI.good f'' (List.mem_of_getElem? h1)
      · intro v row k' hv
        rw [hI.mem v row k' hv]
        constructor
        · rintro ⟨f', h1, h2⟩
          obtain ⟨f'', h3, h4⟩ := hset k' f' h1
          exact ⟨f'', h3, by rw [h4]; exact h2⟩
        · rintro ⟨f', h1, h2⟩
          obtain ⟨f'', h3, h4⟩ := hslot k' f' h1
          exact ⟨f'', h3, by rw [h4]; exact h2⟩
      · intro e he
        rcases List.mem_append.1 he with he | he
        · obtain ⟨g1, f', h1, h2⟩ := hI.given e he
          obtain ⟨f'', h3, h4⟩ := hset _ f' h1
          exact ⟨g1, f'', h3, by rw [h4]; exact h2⟩
        · rw [List.mem_singleton] at he; subst he
          obtain ⟨f'', h3, h4⟩ := hset k f hf
          exact ⟨hg, f'', h3, by rw [h4]; exact hsame⟩
      · intro k1 k2 f1 f2 a1 a2 a3
        obtain ⟨g1, b1, c1⟩ := hslot k1 f1 a1
        obtain ⟨g2, b2, c2⟩ := hslot k2 f2 a2
        exact hI.apart k1 k2 g1 g2 b1 b2 (by rw [c1, c2]; exact a3)
      · intro k' f' hk'
        rw [filter_append_one]
        rcases hget k' f' hk' with ⟨hne, h⟩ | ⟨rfl, rfl⟩
        · rw [if_neg (by simp only; omega), List.append_nil]
          exact hI.owners k' f' h
        · right
          rw [if_pos rfl]
          rcases hI.owners k' f hf with ⟨e, h1, h2, h3, h4⟩ | ⟨e, e', h1, h2, h3, h4⟩
          · exact ⟨e, ⟨i, j, s, k'⟩, by rw [h1]; rfl, h2, h3, rfl⟩
          · exfalso
            rw [hu] at h4
            unfold unInit at h4; omega
    · right
      refine ⟨by simp only [Res.assert, if_neg hu]; rfl, ?_⟩
      rcases hI.owners k f hf with ⟨e, h1, h2, h3, h4⟩ | ⟨e, e', h1, h2, h3, h4⟩
      · exact absurd h4 hu
      · refine ⟨e, e', by rw [← h1]; exact List.filter_sublist, ?_, ?_⟩
        · rw [h2]; exact same_symm hsame
        · have hm : e' ∈ log.filter (fun e => e.k == k) := by rw [h1]; simp
          rw [List.mem_filter, beq_iff_eq] at hm
          obtain ⟨g1, f', h5, h6⟩ := hI.given e' hm.1
          rw [hm.2, hf] at h5; cases h5
          exact same_trans hs g1 hfg h6 (same_symm hsame)

/-! ### the loops -/

def logRow (per : Bool) (i : Nat) (c : Cell) (j : Nat) : List Nat → List Entry
  | [] => []
  | k :: ks => ⟨i, j, slot per c j, k⟩ :: logRow per i c (j + 1) ks

def logRows (per : Bool) (i : Nat) : List Cell → List (List Nat) → List Entry
  | c :: cs, row :: rows => logRow per i c 0 row ++ logRows per (i + 1) cs rows
  | _, _ => []

/-- in the order of the loop -/
def Before (a b : Entry) : Prop := a.i < b.i ∨ (a.i = b.i ∧ a.j < b.j)

theorem addSlots_spec {per : Bool} {nNodes : Nat} {srt : Sorter} (hs : Sorts srt) (i : Nat) {c : Cell} (hv : Valid per nNodes c) :
    ∀ (n j : Nat) (log : List Entry) (st : St), j + n = (numFaces c.type).toNat → Inv per nNodes srt log st →
    (∃ st' ks, addSlots per srt i c st j n = .ok (st', ks) ∧ ks.length = n ∧ Inv per nNodes srt (log ++ logRow per i c j ks) st') ∨
    (addSlots per srt i c st j n = .abort ∧ ∃ (ks : List Nat) (e e' : Entry), ks.length < n ∧
      List.Sublist [e, e'] (log ++ logRow per i c j ks) ∧
      Same per srt e.s (slot per c (j + ks.length)) ∧ Same per srt e'.s (slot per c (j + ks.length))) := by
  intro n
  induction n with
  | zero => intro j log st _ hI; exact Or.inl ⟨st, [], rfl, rfl, by simpa [logRow] using hI⟩
  | succ n ih =>
    intro j log st hj hI
    have hjl : j < (numFaces c.type).toNat := by omega
    rw [addSlots, slotOf_eq hv hjl, Res.ok_bind]
    rcases addSlot_spec hs hI i j (slot_good hv hjl) with ⟨st1, k, h1, h2⟩ | ⟨h1, e, e', h2, h3, h4⟩
    · rw [h1, Res.ok_bind]
      simp only
      rcases ih (j + 1) _ st1 (by omega) h2 with ⟨st2, ks, a1, a2, a3⟩ | ⟨a1, ks, e, e', a2, a3, a4, a5⟩
      · left
        refine ⟨st2, k :: ks, by rw [a1, Res.ok_bind], by simp [a2], ?_⟩
        rw [logRow]
        rw [List.append_assoc] at a3
        exact a3
      · right
        refine ⟨by rw [a1]; rfl, k :: ks, e, e', by simp; omega, ?_, ?_, ?_⟩
        · rw [logRow]; rw [List.append_assoc] at a3; exact a3
        · rw [List.length_cons, show j + (ks.length + 1) = j + 1 + ks.length by omega]; exact a4
        · rw [List.length_cons, show j + (ks.length + 1) = j + 1 + ks.length by omega]; exact a5
    · right
      exact ⟨by rw [h1]; rfl, [], e, e', by simp, by simpa [logRow] using h2, by simpa using h3, by simpa using h4⟩

theorem addCells_spec {per : Bool} {nNodes : Nat} {srt : Sorter} (hs : Sorts srt) :
    ∀ (cs : List Cell) (i : Nat) (log : List Entry) (st : St), (∀ c ∈ cs, Valid per nNodes c) → Inv per nNodes srt log st →
    (∃ st' rows, addCells per srt st i cs = .ok (st', rows) ∧ rows.length = cs.length ∧
      (∀ (n : Nat) (c : Cell) (row : List Nat), cs[n]? = some c → rows[n]? = some row → row.length = (numFaces c.type).toNat) ∧
      Inv per nNodes srt (log ++ logRows per i cs rows) st') ∨
    (addCells per srt st i cs = .abort ∧ ∃ (n : Nat) (c : Cell) (rows : List (List Nat)) (ks : List Nat) (e e' : Entry),
      cs[n]? = some c ∧ rows.length = n ∧
      (∀ (m : Nat) (c : Cell) (row : List Nat), cs[m]? = some c → rows[m]? = some row → row.length = (numFaces c.type).toNat) ∧
      ks.length < (numFaces c.type).toNat ∧
      List.Sublist [e, e'] (log ++ logRows per i cs (rows ++ [ks])) ∧
      Same per srt e.s (slot per c ks.length) ∧ Same per srt e'.s (slot per c ks.length)) := by
  intro cs
  induction cs with
  | nil => intro i log st _ hI; exact Or.inl ⟨st, [], rfl, rfl, by simp, by simpa [logRows] using hI⟩
  | cons c cs ih =>
    intro i log st hv hI
    rw [addCells]
    rcases addSlots_spec hs i (hv c (by simp)) _ 0 log st (Nat.zero_add _) hI with ⟨st1, ks, h1, h2, h3⟩ | ⟨h1, ks, e, e', h2, h3, h4, h5⟩
    · rw [h1, Res.ok_bind]
      simp only
      rcases ih (i + 1) _ st1 (fun x hx => hv x (by simp [hx])) h3 with ⟨st2, rows, a1, a2, a3, a4⟩ | ⟨a1, n, c', rows, ks', e, e', a2, a3, a4, a5, a6, a7, a8⟩
      · left
        refine ⟨st2, ks :: rows, by rw [a1, Res.ok_bind], by simp [a2], ?_, ?_⟩
        · intro n c' row hc hr
          cases n with
          | zero => simp at hc hr; subst hc hr; exact h2
          | succ n => exact a3 n c' row (by simpa using hc) (by simpa using hr)
        · rw [logRows]; rw [List.append_assoc] at a4; exact a4
      · right
        refine ⟨by rw [a1]; rfl, n + 1, c', ks :: rows, ks', e, e', by simpa using a2, by simp [a3], ?_, a5, ?_, a7, a8⟩
        · intro m c'' row hc hr
          cases m with
          | zero => simp at hc hr; subst hc hr; exact h2
          | succ m => exact a4 m c'' row (by simpa using hc) (by simpa using hr)
        · rw [List.cons_append, logRows]; rw [List.append_assoc] at a6; exact a6
    · right
      refine ⟨by rw [h1]; rfl, 0, c, [], ks, e, e', rfl, rfl, by simp, h2, ?_, by simpa using h4, by simpa using h5⟩
      rw [List.nil_append, logRows]
      cases cs <;> simpa [logRows] using h3

/-! ### reading the log -/

theorem mem_logRow {per : Bool} {i : Nat} {c : Cell} {e : Entry} : ∀ (ks : List Nat) (j : Nat),
    e ∈ logRow per i c j ks ↔ ∃ n, ks[n]? = some e.k ∧ e.i = i ∧ e.j = j + n ∧ e.s = slot per c (j + n) := by
  intro ks
  induction ks with
  | nil => intro j; simp [logRow]
  | cons k ks ih =>
    intro j
    rw [logRow, List.mem_cons, ih]
    constructor
    · rintro (rfl | ⟨n, h1, h2, h3, h4⟩)
      · exact ⟨0, rfl, rfl, rfl, rfl⟩
      · exact ⟨n + 1, by simpa using h1, h2, by omega, by rw [h4]; congr 1; omega⟩
    · rintro ⟨n, h1, h2, h3, h4⟩
      cases n with
      | zero =>
        left
        obtain ⟨ei, ej, es, ek⟩ := e
        simp at h1 h2 h3 h4
        subst h1 h2 h3 h4; rfl
      | succ n => exact Or.inr ⟨n, by simpa using h1, h2, by omega, by rw [h4]; congr 1; omega⟩

theorem mem_logRows {per : Bool} {e : Entry} : ∀ (cs : List Cell) (rows : List (List Nat)) (i : Nat),
    e ∈ logRows per i cs rows ↔ ∃ (n : Nat) (c : Cell) (row : List Nat), cs[n]? = some c ∧ rows[n]? = some row ∧ e.i = i + n ∧
      row[e.j]? = some e.k ∧ e.s = slot per c e.j := by
  intro cs
  induction cs with
  | nil => intro rows i; simp [logRows]
  | cons c cs ih =>
    intro rows i
    cases rows with
    | nil => simp [logRows]
    | cons row rows =>
      rw [logRows, List.mem_append, mem_logRow, ih]
      constructor
      · rintro (⟨n, h1, h2, h3, h4⟩ | ⟨n, c', row', h1, h2, h3, h4, h5⟩)
        · refine ⟨0, c, row, rfl, rfl, h2, ?_, ?_⟩
          · rw [h3, Nat.zero_add]; exact h1
          · rw [h4, h3]
        · exact ⟨n + 1, c', row', by simpa using h1, by simpa using h2, by omega, h4, h5⟩
      · rintro ⟨n, c', row', h1, h2, h3, h4, h5⟩
        cases n with
        | zero =>
          simp at h1 h2; subst h1 h2
          exact Or.inl ⟨e.j, h4, h3, by omega, by rw [Nat.zero_add]; exact h5⟩
        | succ n => exact Or.inr ⟨n, c', row', by simpa using h1, by simpa using h2, by omega, h4, h5⟩

theorem logRow_sorted {per : Bool} {i : Nat} {c : Cell} : ∀ (ks : List Nat) (j : Nat), (logRow per i c j ks).Pairwise Before := by
  intro ks
  induction ks with
  | nil => intro j; simp [logRow]
  | cons k ks ih =>
    intro j
    rw [logRow, List.pairwise_cons]
    refine ⟨?_, ih _⟩
    intro e he
    obtain ⟨n, _, h2, h3, _⟩ := (mem_logRow _ _).1 he
    exact Or.inr ⟨h2.symm, by simp only; omega⟩

theorem logRows_sorted {per : Bool} : ∀ (cs : List Cell) (rows : List (List Nat)) (i : Nat), (logRows per i cs rows).Pairwise Before := by
  intro cs
  induction cs with
  | nil => intro rows i; simp [logRows]
  | cons c cs ih =>
    intro rows i
    cases rows with
    | nil => simp [logRows]
    | cons row rows =>
      rw [logRows, List.pairwise_append]
      refine ⟨logRow_sorted _ _, ih _ _, ?_⟩
      intro a ha b hb
      obtain ⟨_, _, h2, _, _⟩ := (mem_logRow _ _).1 ha
      obtain ⟨n, _, _, _, _, h3, _⟩ := (mem_logRows _ _ _).1 hb
      left; omega

theorem unzip_log {per : Bool} {cells : List Cell} {rows : List (List Nat)}
    (hsz : ∀ (n : Nat) (c : Cell) (row : List Nat), cells[n]? = some c → rows[n]? = some row → row.length ≤ (numFaces c.type).toNat)
    {e : Entry} (he : e ∈ logRows per 0 cells rows) : IsSlot per cells e.i e.j e.s ∧ ∃ row, rows[e.i]? = some row ∧ row[e.j]? = some e.k := by
  obtain ⟨n, c, row, h1, h2, h3, h4, h5⟩ := (mem_logRows _ _ _).1 he
  rw [Nat.zero_add] at h3
  have := hsz n c row h1 h2
  have := (List.getElem?_eq_some_iff.1 h4).1
  exact ⟨⟨c, by rw [h3]; exact h1, by omega, h5⟩, row, by rw [h3]; exact h2, h4⟩

theorem same_pos {e e' : Entry} (hb : Before e e') : (e.i, e.j) ≠ (e'.i, e'.j) := by
  intro h
  simp only [Prod.mk.injEq] at h
  rcases hb with h' | ⟨_, h'⟩ <;> omega

end DNDSR.Faces
