import Verif.Proof.ElevSpan
import Verif.Proof.ReorderRun

/-!
# The mesh of order two is a mesh
-/

namespace DNDSR.Elev

open DNDSR.IMap DNDSR.MeshAdj DNDSR.Faces DNDSR.Ghost
open DNDSR.Elem hiding V3
open DNDSR.Bits (Mark)
open DNDSR.Per (V3 Periodicity)

/-! ### the tables -/

theorem nodes2 (t : ElemType) (ht : order t = 1) : (numNodes (elevatedType t)).toNat = (numNodes t).toNat + (numElev t).toNat := by
  cases t <;> first | exact absurd ht (by decide) | decide

theorem faces2 (t : ElemType) (ht : order t = 1) : numFaces (elevatedType t) = numFaces t := by
  cases t <;> first | exact absurd ht (by decide) | decide

theorem face_order (t : ElemType) (ht : order t = 1) : ∀ f ∈ faces t, order (faceType t f) = 1 := by
  cases t <;> first | exact absurd ht (by decide) | decide

theorem elevated_inj (t t' : ElemType) (ht : order t = 1) (ht' : order t' = 1) (h : elevatedType t = elevatedType t') : t = t' := by
  revert h
  cases t <;> first | exact absurd ht (by decide) | (cases t' <;> first | exact absurd ht' (by decide) | decide)

theorem fnodes_lt (t : ElemType) (ht : order t = 1) : ∀ f ∈ faces t, (∀ a ∈ fnodes t f, a < (numNodes t).toNat) ∧
    (fnodes t f).length = (numNodes (faceType t f)).toNat := by
  cases t <;> first | exact absurd ht (by decide) | decide +kernel

/-! ### bits -/

theorem fold_keep (d : Mark) : ∀ (l : List Mark) (c : Mark), c &&& d = d → (∀ x ∈ l, x &&& d = d) → l.foldl (· &&& ·) c &&& d = d
  | [], _, h, _ => h
  | x :: l, c, h, hl => by
      rw [List.foldl_cons]
      refine fold_keep d l _ ?_ (fun y hy => hl y (List.mem_cons_of_mem _ hy))
      rw [BitVec.and_assoc, hl x (List.mem_cons_self ..), h]

theorem fold_zero (d : Mark) : ∀ (l : List Mark) (c : Mark), c &&& d = 0#8 → l.foldl (· &&& ·) c &&& d = 0#8
  | [], _, h => h
  | x :: l, c, h => by
      rw [List.foldl_cons]
      refine fold_zero d l _ ?_
      rw [BitVec.and_comm c x, BitVec.and_assoc, h]; simp

theorem common_keep {d : Mark} {l : List Mark} (h7 : 7#8 &&& d = d) (h : ∀ x ∈ l, x &&& d = d) : commonBits l &&& d = d := fold_keep d l _ h7 h

theorem common_zero {d : Mark} {l : List Mark} (hl : l ≠ []) (h : ∀ x ∈ l, x &&& d = 0#8) : commonBits l &&& d = 0#8 := by
  cases l with
  | nil => exact absurd rfl hl
  | cons x l =>
    unfold commonBits
    rw [List.foldl_cons]
    refine fold_zero d l _ ?_
    rw [BitVec.and_assoc, h x (List.mem_cons_self ..)]; simp

theorem dirBit_7 (z : Int) : 7#8 &&& dirBit z = dirBit z := by unfold dirBit; split <;> (try split) <;> rfl

/-! ### the new mesh -/

variable {per : Bool} {P : Periodicity} {ps ps' : List Piece} {X : Int → V3} {ν : Int → Int} {N : Nat → Nat → Int}

/-- the numbers of nodes in the new mesh `ps'` -/
structure Naming (per : Bool) (ps ps' : List Piece) (ν : Int → Int) (N : Nat → Nat → Int) : Prop where
  lens : cellLens ps' = cellLens ps
  cell : ∀ (i : Nat) (C : Cell), (whole ps)[i]? = some C → (whole ps')[i]? = some (elevCell per ν N i C)
  oldG : ∀ q, Global (nodeLens ps) q → Global (nodeLens ps') (ν q)
  newG : ∀ (i k : Nat) (C : Cell), IsNew ps i k C → Global (nodeLens ps') (N i k)
  inj : ∀ q q', Global (nodeLens ps) q → Global (nodeLens ps) q' → ν q = ν q' → q = q'
  iff : ∀ (i k i' k' : Nat) (C C' : Cell), IsNew ps i k C → IsNew ps i' k' C' → (N i k = N i' k' ↔ (spanOf C' k').Perm (spanOf C k))
  fresh : ∀ (i k : Nat) (C : Cell) (q : Int), IsNew ps i k C → Global (nodeLens ps) q → N i k ≠ ν q

section
variable (hE : Elevatable per P ps X) (hN : Naming per ps ps' ν N)
include hE

theorem Elevatable.global {C : Cell} (hC : C ∈ whole ps) {q : Int} (hq : q ∈ C.nodes) : Global (nodeLens ps) q :=
  (hE.mesh.valid C hC).1.range q hq

theorem elev_old {i : Nat} {C : Cell} (hC : C ∈ whole ps) {a : Nat} (ha : a < (numNodes C.type).toNat) :
    (elevCell per ν N i C).nodes[a]? = some (ν (C.nodes[a]?.getD 0)) := by
  have hl := hE.len hC
  show (C.nodes.map ν ++ _)[a]? = _
  rw [List.getElem?_append_left (by rw [List.length_map]; omega), List.getElem?_map, hE.at_node hC ha]; rfl

theorem elev_new {i : Nat} {C : Cell} (hC : C ∈ whole ps) {k : Nat} (hk : k < (numElev C.type).toNat) :
    (elevCell per ν N i C).nodes[(numNodes C.type).toNat + k]? = some (N i k) := by
  have hl := hE.len hC
  show (C.nodes.map ν ++ _)[_]? = _
  rw [List.getElem?_append_right (by rw [List.length_map]; omega), List.length_map, hl, Nat.add_sub_cancel_left, List.getElem?_map,
    List.getElem?_range hk]; rfl

theorem elev_len {i : Nat} {C : Cell} (hC : C ∈ whole ps) : (elevCell per ν N i C).nodes.length = (numNodes (elevatedType C.type)).toNat := by
  show (C.nodes.map ν ++ _).length = _
  rw [nodes2 _ (hE.order C hC), List.length_append, List.length_map, List.length_map, List.length_range, hE.len hC]

theorem elev_pbi_old (hper : per = true) {i : Nat} {C : Cell} (hC : C ∈ whole ps) {a : Nat} (ha : a < (numNodes C.type).toNat) :
    (elevCell per ν N i C).pbi[a]? = some (C.pbi[a]?.getD 0#8) := by
  have hl := (hE.mesh.valid C hC).1.pbi hper
  subst hper
  show (C.pbi ++ _)[a]? = _
  rw [List.getElem?_append_left (by omega), List.getElem?_eq_getElem (by omega)]; rfl

theorem elev_pbi_new (hper : per = true) {i : Nat} {C : Cell} (hC : C ∈ whole ps) {k : Nat} (hk : k < (numElev C.type).toNat) :
    (elevCell per ν N i C).pbi[(numNodes C.type).toNat + k]? = some (commonBits (spanBits C k)) := by
  have hl := (hE.mesh.valid C hC).1.pbi hper
  subst hper
  show (C.pbi ++ _)[_]? = _
  rw [List.getElem?_append_right (by omega), hl, Nat.add_sub_cancel_left, List.getElem?_map, List.getElem?_range hk]; rfl

theorem elev_pbi_len (hper : per = true) {i : Nat} {C : Cell} (hC : C ∈ whole ps) :
    (elevCell per ν N i C).pbi.length = (numNodes (elevatedType C.type)).toNat := by
  have hl := (hE.mesh.valid C hC).1.pbi hper
  subst hper
  show (C.pbi ++ _).length = _
  rw [nodes2 _ (hE.order C hC), List.length_append, List.length_map, List.length_range, hl]

theorem mem_elev {i : Nat} {C : Cell} {q : Int} :
    q ∈ (elevCell per ν N i C).nodes ↔ (∃ q0 ∈ C.nodes, ν q0 = q) ∨ ∃ k, k < (numElev C.type).toNat ∧ N i k = q := by
  show q ∈ C.nodes.map ν ++ _ ↔ _
  simp [List.mem_append, List.mem_map]

include hN

theorem elev_ok {i : Nat} {C : Cell} (hC : (whole ps)[i]? = some C) :
    Valid per (nodeLens ps').sum (elevCell per ν N i C) ∧ (elevCell per ν N i C).nodes.Nodup := by
  have hmem := List.mem_of_getElem? hC
  have ho := hE.order C hmem
  refine ⟨⟨order2_known _ ho, elev_len hE hmem, fun hp => elev_pbi_len hE hp hmem, ?_⟩, ?_⟩
  · intro q hq
    rcases (mem_elev hE).1 hq with ⟨q0, h1, rfl⟩ | ⟨k, h1, rfl⟩
    · exact hN.oldG _ (hE.global hmem h1)
    · exact hN.newG i k C ⟨hC, h1⟩
  · refine List.nodup_append.2 ⟨?_, ?_, ?_⟩
    · refine (hE.nodup hmem).map_on ?_
      intro a ha b hb e
      exact hN.inj a b (hE.global hmem ha) (hE.global hmem hb) e
    · refine List.nodup_range.map_on ?_
      intro k hk k' hk' e
      have h1 : IsNew ps i k C := ⟨hC, List.mem_range.1 hk⟩
      have h2 : IsNew ps i k' C := ⟨hC, List.mem_range.1 hk'⟩
      exact hE.span_inj h1 h2 ((hN.iff i k i k' C C h1 h2).1 e)
    · intro a ha b hb e
      obtain ⟨q, hq, rfl⟩ := List.mem_map.1 ha
      obtain ⟨k, hk, rfl⟩ := List.mem_map.1 hb
      exact hN.fresh i k C q ⟨hC, List.mem_range.1 hk⟩ (hE.global hmem hq) e.symm

omit hN in
/-- the nodes of a face of order one are its corners -/
theorem corners_all {C : Cell} (hC : C ∈ whole ps) {f : Nat} (hf : f < (numFaces C.type).toNat) :
    corners (slot per C f) = (slot per C f).nodes := by
  obtain ⟨_, _, _, h4, _⟩ := face_split C.type (hE.order C hC) f (List.mem_range.2 hf)
  rw [corners, List.take_of_length_le]
  show _ ≤ (numVertices (faceType C.type f)).toNat
  rw [h4]
  simp [slot]

omit hN in
/-- the corners of a face of the new cell -/
theorem corners2 {i : Nat} {C : Cell} (hC : C ∈ whole ps) {f : Nat} (hf : f < (numFaces C.type).toNat) :
    corners (slot per (elevCell per ν N i C) f) = (slot per C f).nodes.map ν := by
  obtain ⟨h1, h2, h3, h4, _⟩ := face_split C.type (hE.order C hC) f (List.mem_range.2 hf)
  obtain ⟨h5, h6⟩ := fnodes_lt C.type (hE.order C hC) f (List.mem_range.2 hf)
  show ((fnodes (elevatedType C.type) f).map _).take (numVertices (faceType (elevatedType C.type) f)).toNat = _
  rw [h1, h3, h4, ← List.map_take, h6, h2]
  show _ = ((fnodes C.type f).map _).map ν
  rw [List.map_map]
  refine List.map_congr_left ?_
  intro a ha
  rw [elev_old hE hC (h5 a ha)]; rfl

omit hN in
theorem mem_slot1 {C : Cell} (hC : C ∈ whole ps) {f : Nat} (hf : f < (numFaces C.type).toNat) {q : Int} (hq : q ∈ (slot per C f).nodes) : q ∈ C.nodes := by
  obtain ⟨a, ha, rfl⟩ := List.mem_map.1 hq
  exact List.mem_of_getElem? (hE.at_node hC ((fnodes_lt C.type (hE.order C hC) f (List.mem_range.2 hf)).1 a ha))

omit hN in
/-- the nodes of a face of the new cell -/
theorem mem_slot2 {i : Nat} {C : Cell} (hC : (whole ps)[i]? = some C) {f : Nat} (hf : f < (numFaces C.type).toNat) {q : Int} :
    q ∈ (slot per (elevCell per ν N i C) f).nodes ↔ (∃ q0 ∈ (slot per C f).nodes, ν q0 = q) ∨
      ∃ k, IsNew ps i k C ∧ (∀ z ∈ spanOf C k, z ∈ (slot per C f).nodes) ∧ N i k = q := by
  have hmem := List.mem_of_getElem? hC
  have ho := hE.order C hmem
  obtain ⟨h1, h2, h3, h4, h5, h6⟩ := face_split C.type ho f (List.mem_range.2 hf)
  obtain ⟨g1, g2⟩ := fnodes_lt C.type ho f (List.mem_range.2 hf)
  have key : ∀ a ∈ fnodes (elevatedType C.type) f, a ∈ fnodes C.type f ∨
      ((numNodes C.type).toNat ≤ a ∧ a - (numNodes C.type).toNat < (numElev C.type).toNat ∧ ∀ v ∈ span C.type (a - (numNodes C.type).toNat), v ∈ fnodes C.type f) := by
    intro a ha
    rw [← List.take_append_drop (numNodes (faceType C.type f)).toNat (fnodes (elevatedType C.type) f), h2, List.mem_append] at ha
    rcases ha with ha | ha
    · exact Or.inl ha
    · exact Or.inr (h6 a ha)
  constructor
  · intro hq
    obtain ⟨a, ha, rfl⟩ := List.mem_map.1 hq
    rcases key a ha with ha | ⟨k1, k2, k3⟩
    · left
      refine ⟨_, List.mem_map.2 ⟨a, ha, rfl⟩, ?_⟩
      rw [elev_old hE hmem (g1 a ha)]; rfl
    · right
      refine ⟨a - (numNodes C.type).toNat, ⟨hC, k2⟩, ?_, ?_⟩
      · intro z hz
        obtain ⟨v, hv, rfl⟩ := List.mem_map.1 hz
        exact List.mem_map.2 ⟨v, k3 v hv, rfl⟩
      · have := elev_new (ν := ν) (N := N) (i := i) hE hmem k2
        rw [show (numNodes C.type).toNat + (a - (numNodes C.type).toNat) = a by omega] at this
        rw [this]; rfl
  · rintro (⟨q0, hq0, rfl⟩ | ⟨k, hk, hs, rfl⟩)
    · obtain ⟨a, ha, rfl⟩ := List.mem_map.1 hq0
      refine List.mem_map.2 ⟨a, ?_, by rw [elev_old hE hmem (g1 a ha)]; rfl⟩
      show a ∈ fnodes (elevatedType C.type) f
      rw [← h2] at ha
      exact List.mem_of_mem_take ha
    · refine List.mem_map.2 ⟨(numNodes C.type).toNat + k, ?_, by rw [elev_new hE hmem hk.2]; rfl⟩
      refine span_face C.type ho f (List.mem_range.2 hf) k (List.mem_range.2 hk.2) ?_
      intro v hv
      have hlt := (span_lt C.type ho k (List.mem_range.2 hk.2)).2 v hv
      obtain ⟨b, hb, e⟩ := List.mem_map.1 (hs _ (List.mem_map.2 ⟨v, hv, rfl⟩))
      rw [← hE.node_inj hmem (g1 b hb) hlt e]
      exact hb

theorem cell2 {i : Nat} {C' : Cell} (h : (whole ps')[i]? = some C') : ∃ C, (whole ps)[i]? = some C ∧ C' = elevCell per ν N i C := by
  have hlt := (List.getElem?_eq_some_iff.1 h).1
  rw [whole_length, hN.lens, ← whole_length] at hlt
  have hC := List.getElem?_eq_getElem hlt
  have := hN.cell i _ hC
  rw [h] at this
  exact ⟨_, hC, Option.some.inj this⟩

theorem slot2 {i j : Nat} {a : Slot} (h : IsSlot per (whole ps') i j a) :
    ∃ C, (whole ps)[i]? = some C ∧ j < (numFaces C.type).toNat ∧ a = slot per (elevCell per ν N i C) j := by
  obtain ⟨c, h1, h2, rfl⟩ := h
  obtain ⟨C, hC, rfl⟩ := cell2 hE hN h1
  refine ⟨C, hC, ?_, rfl⟩
  have : numFaces (elevatedType C.type) = numFaces C.type := faces2 _ (hE.order C (List.mem_of_getElem? hC))
  rw [← this]; exact h2

theorem perm_back {i j : Nat} {C E : Cell} (hC : (whole ps)[i]? = some C) (hD : (whole ps)[j]? = some E) {f g : Nat} (hf : f < (numFaces C.type).toNat)
    (hg : g < (numFaces E.type).toNat)
    (h : (corners (slot per (elevCell per ν N i C) f)).Perm (corners (slot per (elevCell per ν N j E) g))) :
    (slot per C f).nodes.Perm (slot per E g).nodes := by
  have hm := List.mem_of_getElem? hC
  have hm' := List.mem_of_getElem? hD
  rw [corners2 hE hm hf, corners2 hE hm' hg] at h
  have nd : ∀ {C : Cell} (hC : C ∈ whole ps) {f : Nat} (hf : f < (numFaces C.type).toNat), (slot per C f).nodes.Nodup := by
    intro C hC f hf
    refine List.Nodup.map_on ?_ (face_lists_valid C.type (order_known _ (hE.order C hC)) f (List.mem_range.2 hf)).2.2.1
    intro a ha b hb e
    have := (fnodes_lt C.type (hE.order C hC) f (List.mem_range.2 hf)).1
    exact hE.node_inj hC (this a ha) (this b hb) e
  refine (List.perm_ext_iff_of_nodup (nd hm hf) (nd hm' hg)).2 ?_
  intro q
  constructor
  · intro hq
    obtain ⟨q', hq', e⟩ := List.mem_map.1 (h.mem_iff.1 (List.mem_map.2 ⟨q, hq, rfl⟩))
    rw [← hN.inj q' q (hE.global hm' (mem_slot1 hE hm' hg hq')) (hE.global hm (mem_slot1 hE hm hf hq)) e]
    exact hq'
  · intro hq
    obtain ⟨q', hq', e⟩ := List.mem_map.1 (h.mem_iff.2 (List.mem_map.2 ⟨q, hq, rfl⟩))
    rw [← hN.inj q' q (hE.global hm (mem_slot1 hE hm hf hq')) (hE.global hm' (mem_slot1 hE hm' hg hq)) e]
    exact hq'

omit hE hN in
theorem slot_nodup {n : Nat} {C : Cell} (hv : Valid per n C) (hn : C.nodes.Nodup) {f : Nat} (hf : f < (numFaces C.type).toNat) : (slot per C f).nodes.Nodup := by
  refine List.Nodup.map_on ?_ (face_lists_valid C.type hv.known f (List.mem_range.2 hf)).2.2.1
  intro a ha b hb e
  have ht := (good_table C.type hv.known f (List.mem_range.2 hf)).2.2.2
  have ha' := ht a ha
  have hb' := ht b hb
  rw [← hv.nodes] at ha' hb'
  rw [List.getElem?_eq_getElem ha', List.getElem?_eq_getElem hb', Option.getD_some, Option.getD_some] at e
  exact (List.Nodup.getElem_inj_iff hn).1 e

/-- a node of a face of one cell is a node of the same face of another -/
theorem node_over {i j : Nat} {C E : Cell} (hC : (whole ps)[i]? = some C) (hD : (whole ps)[j]? = some E) {f g : Nat} (hf : f < (numFaces C.type).toNat)
    (hg : g < (numFaces E.type).toNat) (h : ∀ q ∈ (slot per C f).nodes, q ∈ (slot per E g).nodes) {q : Int}
    (hq : q ∈ (slot per (elevCell per ν N i C) f).nodes) : q ∈ (slot per (elevCell per ν N j E) g).nodes := by
  rcases (mem_slot2 hE hC hf).1 hq with ⟨q0, h0, rfl⟩ | ⟨k, hk, hs, rfl⟩
  · exact (mem_slot2 hE hD hg).2 (Or.inl ⟨q0, h q0 h0, rfl⟩)
  · obtain ⟨k', hk', hp⟩ := hE.spans i k j C E hk hD (fun z hz => mem_slot1 hE (List.mem_of_getElem? hD) hg (h z (hs z hz)))
    exact (mem_slot2 hE hD hg).2 (Or.inr ⟨k', hk', fun z hz => h z (hs z (hp.mem_iff.1 hz)), ((hN.iff i k j k' C E hk hk').2 hp).symm⟩)

theorem conforming2 (i j i' j' : Nat) (a b : Slot) (ha : IsSlot per (whole ps') i j a) (hb : IsSlot per (whole ps') i' j' b)
    (h : (corners a).Perm (corners b)) : a.nodes.Perm b.nodes := by
  obtain ⟨C, hC, hf, rfl⟩ := slot2 hE hN ha
  obtain ⟨E, hD, hg, rfl⟩ := slot2 hE hN hb
  have hp := perm_back hE hN hC hD hf hg h
  obtain ⟨v1, n1⟩ := elev_ok hE hN hC
  obtain ⟨v2, n2⟩ := elev_ok hE hN hD
  have e1 : numFaces (elevatedType C.type) = numFaces C.type := faces2 _ (hE.order C (List.mem_of_getElem? hC))
  have e2 : numFaces (elevatedType E.type) = numFaces E.type := faces2 _ (hE.order E (List.mem_of_getElem? hD))
  refine (List.perm_ext_iff_of_nodup (slot_nodup v1 n1 (by show j < (numFaces (elevatedType C.type)).toNat; rw [e1]; exact hf))
    (slot_nodup v2 n2 (by show j' < (numFaces (elevatedType E.type)).toNat; rw [e2]; exact hg))).2 ?_
  intro q
  exact ⟨node_over hE hN hC hD hf hg (fun z => hp.mem_iff.1), node_over hE hN hD hC hg hf (fun z => hp.mem_iff.2)⟩

omit hE hN in
theorem mem_slot_zip {C : Cell} {f : Nat} {n : Int} {v : Mark} (hper : per = true) :
    (n, v) ∈ (slot per C f).nodes.zip (slot per C f).pbi ↔ ∃ a ∈ fnodes C.type f, C.nodes[a]?.getD 0 = n ∧ C.pbi[a]?.getD 0#8 = v := by
  subst hper
  show (n, v) ∈ ((fnodes C.type f).map _).zip ((fnodes C.type f).map _) ↔ _
  rw [List.zip_map', List.mem_map]
  simp only [Prod.mk.injEq]

theorem same_back {i j : Nat} {C E : Cell} (hC : (whole ps)[i]? = some C) (hD : (whole ps)[j]? = some E) {f g : Nat} (hf : f < (numFaces C.type).toNat)
    (hg : g < (numFaces E.type).toNat) (h : SameFace per (slot per (elevCell per ν N i C) f) (slot per (elevCell per ν N j E) g)) :
    SameFace per (slot per C f) (slot per E g) := by
  have hm := List.mem_of_getElem? hC
  have hm' := List.mem_of_getElem? hD
  have ho := hE.order C hm
  have ho' := hE.order E hm'
  obtain ⟨h1, h2, h3⟩ := h
  obtain ⟨t1, t2, -⟩ := face_split C.type ho f (List.mem_range.2 hf)
  obtain ⟨s1, s2, -⟩ := face_split E.type ho' g (List.mem_range.2 hg)
  refine ⟨?_, ?_, ?_⟩
  · have h1 : faceType (elevatedType C.type) f = faceType (elevatedType E.type) g := h1
    rw [t1, s1] at h1
    exact elevated_inj _ _ (face_order _ ho f (List.mem_range.2 hf)) (face_order _ ho' g (List.mem_range.2 hg)) h1
  · rw [corners_all hE hm hf, corners_all hE hm' hg]
    exact perm_back hE hN hC hD hf hg h2
  · intro hper
    obtain ⟨v, hv⟩ := h3 hper
    refine ⟨v, ?_⟩
    have up : ∀ {i : Nat} {C : Cell} (hm : C ∈ whole ps) {f : Nat} (hf : f < (numFaces C.type).toNat) {n : Int} {x : Mark},
        (n, x) ∈ (slot per C f).nodes.zip (slot per C f).pbi →
        (ν n, x) ∈ (slot per (elevCell per ν N i C) f).nodes.zip (slot per (elevCell per ν N i C) f).pbi := by
      intro i C hm f hf n x hx
      obtain ⟨a, ha, e1, e2⟩ := (mem_slot_zip hper).1 hx
      have hlt := (fnodes_lt C.type (hE.order C hm) f (List.mem_range.2 hf)).1 a ha
      obtain ⟨_, t2, -⟩ := face_split C.type (hE.order C hm) f (List.mem_range.2 hf)
      refine (mem_slot_zip hper).2 ⟨a, ?_, ?_, ?_⟩
      · show a ∈ fnodes (elevatedType C.type) f
        rw [← t2] at ha
        exact List.mem_of_mem_take ha
      · rw [elev_old hE hm hlt, e1]; rfl
      · rw [elev_pbi_old hE hper hm hlt, e2]; rfl
    intro n x y hx hy
    exact hv (ν n) x y (up hm hf hx) (up hm' hg hy)

/-! ### nodes and cells -/

theorem hasNode_up {c q : Int} (h : HasNode ps c q) : HasNode ps' c (ν q) := by
  obtain ⟨C, hC, hq⟩ := h
  exact ⟨_, ⟨hC.1, hN.cell _ C hC.2⟩, (mem_elev hE).2 (Or.inl ⟨q, hq, rfl⟩)⟩

theorem hasNode_old {c q : Int} (hg : Global (nodeLens ps) q) (h : HasNode ps' c (ν q)) : HasNode ps c q := by
  obtain ⟨C', hC', hq⟩ := h
  obtain ⟨C, hC, rfl⟩ := cell2 hE hN hC'.2
  refine ⟨C, ⟨hC'.1, hC⟩, ?_⟩
  rcases (mem_elev hE).1 hq with ⟨q0, h1, h2⟩ | ⟨k, h1, h2⟩
  · rw [← hN.inj q0 q (hE.global (List.mem_of_getElem? hC) h1) hg h2]; exact h1
  · exact absurd h2 (hN.fresh _ k C q ⟨hC, h1⟩ hg)

/-- cells share a node in the new mesh exactly if they do in the old one -/
theorem share2 {c d : Int} : (∃ q, HasNode ps' c q ∧ HasNode ps' d q) ↔ ∃ q, HasNode ps c q ∧ HasNode ps d q := by
  constructor
  · rintro ⟨q, h1, h2⟩
    obtain ⟨C', hC', hq⟩ := h1
    obtain ⟨C, hC, rfl⟩ := cell2 hE hN hC'.2
    have hm := List.mem_of_getElem? hC
    rcases (mem_elev hE).1 hq with ⟨q0, e1, rfl⟩ | ⟨k, e1, rfl⟩
    · exact ⟨q0, ⟨C, ⟨hC'.1, hC⟩, e1⟩, hasNode_old hE hN (hE.global hm e1) h2⟩
    · obtain ⟨E', hD', hq'⟩ := h2
      obtain ⟨E, hD, rfl⟩ := cell2 hE hN hD'.2
      have hm' := List.mem_of_getElem? hD
      have hk : IsNew ps c.toNat k C := ⟨hC, e1⟩
      rcases (mem_elev hE).1 hq' with ⟨q0, f1, f2⟩ | ⟨k', f1, f2⟩
      · exact absurd f2.symm (hN.fresh _ k C q0 hk (hE.global hm' f1))
      · have hk' : IsNew ps d.toNat k' E := ⟨hD, f1⟩
        have hp := (hN.iff _ _ _ _ _ _ hk' hk).1 f2
        obtain ⟨n1, n2⟩ := hE.span_mem hk
        obtain ⟨q, hq⟩ := List.exists_mem_of_ne_nil _ n1
        exact ⟨q, ⟨C, ⟨hC'.1, hC⟩, n2 q hq⟩, ⟨E, ⟨hD'.1, hD⟩, (hE.span_mem hk').2 q (hp.mem_iff.1 hq)⟩⟩
  · rintro ⟨q, h1, h2⟩
    exact ⟨ν q, hasNode_up hE hN h1, hasNode_up hE hN h2⟩

/-! ### boundary elements -/

/-- the new boundary element -/
def bnd2 (per : Bool) (ν : Int → Int) (N : Nat → Nat → Int) (b : Bnd) (i f : Nat) (C : Cell) : Bnd := ⟨b.zone, (slot per (elevCell per ν N i C) f).nodes⟩

theorem covers2 {i f : Nat} {C : Cell} (hC : (whole ps)[i]? = some C) (hf : f < (numFaces C.type).toNat) {b : Bnd}
    (hb : (corners (slot per C f)).Perm b.nodes) (c : Int) : Covers ps' c (bnd2 per ν N b i f C) ↔ Covers ps c b := by
  have hm := List.mem_of_getElem? hC
  rw [corners_all hE hm hf] at hb
  constructor
  · intro h q hq
    have hq' := hb.mem_iff.2 hq
    exact hasNode_old hE hN (hE.global hm (mem_slot1 hE hm hf hq')) (h (ν q) ((mem_slot2 hE hC hf).2 (Or.inl ⟨q, hq', rfl⟩)))
  · intro h q hq
    rcases (mem_slot2 hE hC hf).1 hq with ⟨q0, e1, rfl⟩ | ⟨k, hk, hs, rfl⟩
    · exact hasNode_up hE hN (h q0 (hb.mem_iff.1 e1))
    · obtain ⟨z, hz⟩ := List.exists_mem_of_ne_nil _ (hE.span_mem hk).1
      obtain ⟨E, hD, _⟩ := h z (hb.mem_iff.1 (hs z hz))
      have hin : ∀ q ∈ spanOf C k, q ∈ E.nodes := by
        intro q hq
        obtain ⟨E', hD', h'⟩ := h q (hb.mem_iff.1 (hs q hq))
        rw [isCell_unique hD hD']; exact h'
      obtain ⟨k', hk', hp⟩ := hE.spans i k _ C E hk hD.2 hin
      refine ⟨_, ⟨hD.1, hN.cell _ E hD.2⟩, (mem_elev hE).2 (Or.inr ⟨k', hk'.2, ?_⟩)⟩
      exact (hN.iff _ _ _ _ _ _ hk' hk).2 hp.symm

theorem onSide2 (hper : per = true) {i f j : Nat} {C E : Cell} (hC : (whole ps)[i]? = some C) (hf : f < (numFaces C.type).toNat) {b : Bnd}
    (hb : (corners (slot per C f)).Perm b.nodes) (hD : (whole ps)[j]? = some E) : OnSide (elevCell per ν N j E) (bnd2 per ν N b i f C) ↔ OnSide E b := by
  have hm := List.mem_of_getElem? hC
  have hm' := List.mem_of_getElem? hD
  rw [corners_all hE hm hf] at hb
  constructor
  · intro h q v hq hv
    have hq' := hb.mem_iff.2 hq
    refine h (ν q) v ((mem_slot2 hE hC hf).2 (Or.inl ⟨q, hq', rfl⟩)) ?_
    obtain ⟨a, ha⟩ := List.mem_iff_getElem?.1 hv
    obtain ⟨e1, e2⟩ := List.getElem?_zip_eq_some.1 ha
    have hlt : a < (numNodes E.type).toNat := by rw [← hE.len hm']; exact (List.getElem?_eq_some_iff.1 e1).1
    refine List.mem_iff_getElem?.2 ⟨a, List.getElem?_zip_eq_some.2 ⟨?_, ?_⟩⟩
    · rw [elev_old hE hm' hlt, e1]; rfl
    · rw [elev_pbi_old hE hper hm' hlt, e2]; rfl
  · intro h q v hq hv
    obtain ⟨a, ha⟩ := List.mem_iff_getElem?.1 hv
    obtain ⟨e1, e2⟩ := List.getElem?_zip_eq_some.1 ha
    -- the bit at old nodes
    have hold : ∀ c, c < (numNodes E.type).toNat → E.nodes[c]?.getD 0 ∈ (slot per C f).nodes →
        (E.pbi[c]?.getD 0#8) &&& dirBit b.zone = if isDonor b.zone then dirBit b.zone else 0#8 := by
      intro c hc hin
      refine h (E.nodes[c]?.getD 0) _ (hb.mem_iff.1 hin) ?_
      refine List.mem_iff_getElem?.2 ⟨c, List.getElem?_zip_eq_some.2 ⟨hE.at_node hm' hc, ?_⟩⟩
      have hl := (hE.mesh.valid E hm').1.pbi hper
      rw [List.getElem?_eq_getElem (by omega)]; rfl
    by_cases hlt : a < (numNodes E.type).toNat
    · rw [elev_old hE hm' hlt] at e1
      rw [elev_pbi_old hE hper hm' hlt] at e2
      cases e1; cases e2
      refine hold a hlt ?_
      have hg' := hE.global hm' (List.mem_of_getElem? (hE.at_node hm' hlt))
      rcases (mem_slot2 hE hC hf).1 hq with ⟨q0, f1, f2⟩ | ⟨k, hk, _, f2⟩
      · rw [← hN.inj _ _ (hE.global hm (mem_slot1 hE hm hf f1)) hg' f2]; exact f1
      · exact absurd f2 (hN.fresh _ _ _ _ hk hg')
    · have hlen := elev_len (ν := ν) (N := N) (i := j) hE hm'
      have hlt2 := (List.getElem?_eq_some_iff.1 e1).1
      rw [hlen, nodes2 _ (hE.order E hm')] at hlt2
      have hk' : IsNew ps j (a - (numNodes E.type).toNat) E := ⟨hD, by omega⟩
      have ea : a = (numNodes E.type).toNat + (a - (numNodes E.type).toNat) := by omega
      rw [ea, elev_new hE hm' hk'.2] at e1
      rw [ea, elev_pbi_new hE hper hm' hk'.2] at e2
      cases e1; cases e2
      have hs : ∀ z ∈ spanOf E (a - (numNodes E.type).toNat), z ∈ (slot per C f).nodes := by
        rcases (mem_slot2 hE hC hf).1 hq with ⟨q0, f1, f2⟩ | ⟨k, hk, hs, f2⟩
        · exact absurd f2.symm (hN.fresh _ _ _ _ hk' (hE.global hm (mem_slot1 hE hm hf f1)))
        · have hp := (hN.iff _ _ _ _ _ _ hk hk').1 f2
          exact fun z hz => hs z (hp.mem_iff.1 hz)
      have hbits : ∀ x ∈ spanBits E (a - (numNodes E.type).toNat), x &&& dirBit b.zone = if isDonor b.zone then dirBit b.zone else 0#8 := by
        intro x hx
        obtain ⟨c, hc, rfl⟩ := List.mem_map.1 hx
        exact hold c ((span_lt E.type (hE.order E hm') _ (List.mem_range.2 hk'.2)).2 c hc) (hs _ (List.mem_map.2 ⟨c, hc, rfl⟩))
      show commonBits _ &&& dirBit b.zone = if isDonor b.zone then dirBit b.zone else 0#8
      cases hd : isDonor b.zone with
      | true =>
        rw [hd] at hbits
        exact common_keep (dirBit_7 _) hbits
      | false =>
        rw [hd] at hbits
        refine common_zero ?_ hbits
        have := (span_lt E.type (hE.order E hm') _ (List.mem_range.2 hk'.2)).1
        unfold spanBits
        simpa using this

theorem bndOk2 {i f : Nat} {C : Cell} (hC : (whole ps)[i]? = some C) (hf : f < (numFaces C.type).toNat) {b : Bnd}
    (hb : (corners (slot per C f)).Perm b.nodes) {x : Int × Int} (hx : BndOk per ps b x) : BndOk per ps' (bnd2 per ν N b i f C) x := by
  unfold BndOk at hx ⊢
  have hz : (bnd2 per ν N b i f C).zone = b.zone := rfl
  rw [hz]
  by_cases hp : per = true ∧ isPeriodicId b.zone = true
  · rw [if_pos hp] at hx ⊢
    obtain ⟨h1, h2, C0, C1, h3, h4, h5, h6⟩ := hx
    refine ⟨h1, fun c => (covers2 hE hN hC hf hb c).trans (h2 c), _, _, ⟨h3.1, hN.cell _ _ h3.2⟩, ⟨h4.1, hN.cell _ _ h4.2⟩, ?_, ?_⟩
    · exact (onSide2 hE hN hp.1 hC hf hb h3.2).2 h5
    · exact fun h => h6 ((onSide2 hE hN hp.1 hC hf hb h4.2).1 h)
  · rw [if_neg hp] at hx ⊢
    exact ⟨hx.1, fun c => (covers2 hE hN hC hf hb c).trans (hx.2 c)⟩

/-- boundary elements of the new mesh -/
def BndsOf (per : Bool) (ps ps' : List Piece) (ν : Int → Int) (N : Nat → Nat → Int) : Prop :=
  ∀ (r : Nat) (p p' : Piece), ps[r]? = some p → ps'[r]? = some p' → p'.bnds.length = p.bnds.length ∧
    ∀ (n : Nat) (b : Bnd), p.bnds[n]? = some b → ∃ (x : Int × Int) (C : Cell) (f : Nat), BndOk per ps b x ∧ IsCell ps x.1 C ∧
      f < (numFaces C.type).toNat ∧ (corners (slot per C f)).Perm b.nodes ∧ p'.bnds[n]? = some (bnd2 per ν N b x.1.toNat f C)

theorem bnd_of (hl : ps'.length = ps.length) (hB : BndsOf per ps ps' ν N) {r : Nat} {p' : Piece} (hp' : ps'[r]? = some p') {n : Nat} {b' : Bnd}
    (hb' : p'.bnds[n]? = some b') : ∃ p b x C f, ps[r]? = some p ∧ p.bnds[n]? = some b ∧ BndOk per ps b x ∧ IsCell ps x.1 C ∧
      f < (numFaces C.type).toNat ∧ (corners (slot per C f)).Perm b.nodes ∧ b' = bnd2 per ν N b x.1.toNat f C := by
  have hr : r < ps.length := by rw [← hl]; exact (List.getElem?_eq_some_iff.1 hp').1
  have hp := List.getElem?_eq_getElem hr
  obtain ⟨h1, h2⟩ := hB r _ p' hp hp'
  have hn : n < ps[r].bnds.length := by rw [← h1]; exact (List.getElem?_eq_some_iff.1 hb').1
  have hb := List.getElem?_eq_getElem hn
  obtain ⟨x, C, f, e1, e2, e3, e4, e5⟩ := h2 n _ hb
  rw [hb'] at e5
  exact ⟨_, _, x, C, f, hp, hb, e1, e2, e3, e4, Option.some.inj e5⟩

/-- The mesh of order two is a mesh. -/
theorem mesh2 (hl : ps'.length = ps.length) (hB : BndsOf per ps ps' ν N) : MeshOk per ps' := by
  refine ⟨?_, ?_, ?_, ?_, ?_⟩
  · intro C' hC'
    obtain ⟨i, hi⟩ := List.mem_iff_getElem?.1 hC'
    obtain ⟨C, hC, rfl⟩ := cell2 hE hN hi
    exact elev_ok hE hN hC
  · intro i j i' j' a b ha hb _ h
    exact conforming2 hE hN i j i' j' a b ha hb h
  · intro i1 j1 i2 j2 i3 j3 a b c ha hb hc hab hac
    obtain ⟨A, hA, f1, rfl⟩ := slot2 hE hN ha
    obtain ⟨B, hB', f2, rfl⟩ := slot2 hE hN hb
    obtain ⟨E, hE', f3, rfl⟩ := slot2 hE hN hc
    exact hE.mesh.two i1 j1 i2 j2 i3 j3 _ _ _ ⟨A, hA, f1, rfl⟩ ⟨B, hB', f2, rfl⟩ ⟨E, hE', f3, rfl⟩ (same_back hE hN hA hB' f1 f2 hab)
      (same_back hE hN hA hE' f1 f3 hac)
  · intro p' hp' b' hb'
    obtain ⟨r, hr⟩ := List.mem_iff_getElem?.1 hp'
    obtain ⟨n, hn⟩ := List.mem_iff_getElem?.1 hb'
    obtain ⟨p, b, x, C, f, h1, h2, h3, h4, h5, h6, rfl⟩ := bnd_of hE hN hl hB hr hn
    have hm := List.mem_of_getElem? h4.2
    have hne := (hE.mesh.bnds p (List.mem_of_getElem? h1) b (List.mem_of_getElem? h2)).1
    rw [corners_all hE hm h5] at h6
    refine ⟨?_, ?_⟩
    · obtain ⟨q, hq⟩ := List.exists_mem_of_ne_nil _ hne
      exact List.ne_nil_of_mem ((mem_slot2 hE h4.2 h5).2 (Or.inl ⟨q, h6.mem_iff.2 hq, rfl⟩))
    · intro q hq
      rcases (mem_slot2 hE h4.2 h5).1 hq with ⟨q0, e1, rfl⟩ | ⟨k, hk, _, rfl⟩
      · exact hN.oldG _ (hE.global hm (mem_slot1 hE hm h5 e1))
      · exact hN.newG _ _ _ hk
  · intro r p' b' hp' hb'
    obtain ⟨n, hn⟩ := List.mem_iff_getElem?.1 hb'
    obtain ⟨p, b, x, C, f, h1, h2, h3, h4, h5, h6, rfl⟩ := bnd_of hE hN hl hB hp' hn
    refine ⟨x, bndOk2 hE hN h4.2 h5 h6 h3, ?_⟩
    obtain ⟨C0, q, hq⟩ : ∃ C0 q, IsCell ps x.1 C0 ∧ q ∈ C0.nodes := by
      obtain ⟨q, hq⟩ := List.exists_mem_of_ne_nil _ (hE.mesh.bnds p (List.mem_of_getElem? h1) b (List.mem_of_getElem? h2)).1
      rw [corners_all hE (List.mem_of_getElem? h4.2) h5] at h6
      exact ⟨C, q, h4, mem_slot1 hE (List.mem_of_getElem? h4.2) h5 (h6.mem_iff.2 hq)⟩
    have ho := (hE.bnds r p b x h1 (List.mem_of_getElem? h2) h3).1
    have hn := hasNode_up hE hN (c := x.1) (q := q) ⟨C0, hq.1, hq.2⟩
    exact ⟨x.1, ν q, by rw [hN.lens]; exact ho, hn, hn⟩

/-- The neighbours stay, the boundary cells too. -/
theorem adj2 (hl : ps'.length = ps.length) (hB : BndsOf per ps ps' ν N) {r : Nat} {p p' : Piece} {a : Adj} (hp : ps[r]? = some p) (hp' : ps'[r]? = some p')
    (h : AdjMeans per ps r p a) {c2c : List (List Int)} (hc : c2c = a.c2c) {b2c : List (Int × Int)} (hb : b2c = a.b2c) :
    AdjMeans per ps' r p' ⟨c2c, b2c⟩ := by
  subst hc hb
  have e : p'.cells.length = p.cells.length := by
    have h1 := Reorder.lens_of hp
    have h2 := Reorder.lens_of hp'
    rw [hN.lens, h1] at h2
    exact (Option.some.inj h2).symm
  obtain ⟨b1, b2⟩ := hB r p p' hp hp'
  refine ⟨by rw [h.rows, e], h.once, ?_, by rw [h.bnds, b1], ?_⟩
  · intro k row hk c
    rw [h.exact_ k row hk c, hN.lens, share2 hE hN]
  · intro k b' x hb' hx
    obtain ⟨p1, b, y, C, f, h1, h2, h3, h4, h5, h6, rfl⟩ := bnd_of hE hN hl hB hp' hb'
    rw [hp] at h1; cases h1
    have hx' := h.bnd k b x h2 hx
    exact bndOk2 hE hN h4.2 h5 h6 hx'

end

end DNDSR.Elev
