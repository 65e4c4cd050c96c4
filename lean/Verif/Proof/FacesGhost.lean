import Verif.Spec.FacesGhost
import Verif.Props.Faces
import Verif.Props.MeshAdj

/-! Helper lemmas for `Verif.Props.FacesGhost`: names, and the faces of one rank in terms of the whole mesh. -/

namespace DNDSR.Faces

open DNDSR.Elem DNDSR.IMap DNDSR.MeshAdj
open DNDSR.Bits (Mark)

/-! ### the relation -/

/-- what is used of a slot of the mesh -/
structure Fine (per : Bool) (n : Nat) (s : Slot) : Prop extends Good per n s where
  nodup : s.nodes.Nodup

theorem sameFace_iff {per : Bool} {srt : Sorter} (hs : Sorts srt) {n : Nat} {a b : Slot} (ha : Fine per n a) (hb : Good per n b)
    (hc : a.type = b.type → (corners a).Perm (corners b) → a.nodes.Perm b.nodes) : Same per srt a b ↔ SameFace per a b := by
  constructor
  · rintro ⟨h1, h2, h3⟩
    exact ⟨h1, h2, fun hp => (same_points srt hs a b (ha.bits hp) (hb.bits hp) ha.nodup (hc h1 h2)).1 (h3 hp)⟩
  · rintro ⟨h1, h2, h3⟩
    exact ⟨h1, h2, fun hp => (same_points srt hs a b (ha.bits hp) (hb.bits hp) ha.nodup (hc h1 h2)).2 (h3 hp)⟩

/-- a slot with its nodes renamed -/
def rename (φ : Int → Int) (s : Slot) : Slot := { s with nodes := s.nodes.map φ }

theorem corners_rename (φ : Int → Int) (s : Slot) : corners (rename φ s) = (corners s).map φ := by
  simp only [corners, rename, List.map_take]

theorem sameFace_rename {per : Bool} {φ ψ : Int → Int} {a b : Slot} (ha : ∀ n ∈ a.nodes, ψ (φ n) = n) (hb : ∀ n ∈ b.nodes, ψ (φ n) = n)
    (h : SameFace per a b) : SameFace per (rename φ a) (rename φ b) := by
  obtain ⟨h1, h2, h3⟩ := h
  refine ⟨h1, ?_, fun hp => ?_⟩
  · rw [corners_rename, corners_rename]; exact h2.map φ
  · obtain ⟨v, hv⟩ := h3 hp
    refine ⟨v, ?_⟩
    intro n x y hx hy
    simp only [rename, List.zip_map_left] at hx hy
    obtain ⟨⟨n1, x1⟩, hx1, ex⟩ := List.mem_map.1 hx
    obtain ⟨⟨n2, y1⟩, hy1, ey⟩ := List.mem_map.1 hy
    simp only [Prod.map_apply, id_eq, Prod.mk.injEq] at ex ey
    obtain ⟨e1, rfl⟩ := ex
    obtain ⟨e2, rfl⟩ := ey
    have e3 : n1 = n2 := by
      rw [← ha n1 (List.of_mem_zip hx1).1, ← hb n2 (List.of_mem_zip hy1).1, e1, e2]
    subst e3
    exact hv n1 x1 y1 hx1 hy1

theorem rename_rename {φ ψ : Int → Int} {a : Slot} (ha : ∀ n ∈ a.nodes, ψ (φ n) = n) : rename ψ (rename φ a) = a := by
  simp only [rename, List.map_map]
  congr 1
  conv => rhs; rw [← List.map_id a.nodes]
  exact List.map_congr_left (fun n hn => ha n hn)

theorem sameFace_rename_iff {per : Bool} {φ ψ : Int → Int} {a b : Slot} (ha : ∀ n ∈ a.nodes, ψ (φ n) = n) (hb : ∀ n ∈ b.nodes, ψ (φ n) = n) :
    SameFace per (rename φ a) (rename φ b) ↔ SameFace per a b := by
  refine ⟨fun h => ?_, sameFace_rename ha hb⟩
  have h' := sameFace_rename (φ := ψ) (ψ := φ) ?_ ?_ h
  · rw [rename_rename ha, rename_rename hb] at h'; exact h'
  · intro n hn
    simp only [rename] at hn
    obtain ⟨m, hm, rfl⟩ := List.mem_map.1 hn
    rw [ha m hm]
  · intro n hn
    simp only [rename] at hn
    obtain ⟨m, hm, rfl⟩ := List.mem_map.1 hn
    rw [hb m hm]

/-! ### names -/

/-- the local name as a function -/
def nameOf (m : Map) (q : Int) : Int := match global2Local m q with | .ok v => v | _ => 0

/-- the global number as a function -/
def numberOf (m : Map) (v : Int) : Int := match m.apply (-1) v with | .ok q => q | _ => 0

theorem nameOf_eq {lens : List Nat} {r : Nat} {m : Map} (h : Faithful lens r m) {q v : Int} (hq : 0 ≤ q)
    (hn : LocalName lens r m.ghostIndex q v) : nameOf m q = v := by
  have hu : q ≠ Part.unInit := by intro e; rw [e] at hq; simp [Part.unInit] at hq
  obtain ⟨v', e, hn'⟩ := h.global2Local_eq q hu
  rw [nameOf, e]
  exact h.name_unique hn' hn

theorem numberOf_eq {lens : List Nat} {r : Nat} {m : Map} (h : Faithful lens r m) {q v : Int} (hq : 0 ≤ q) (hv : 0 ≤ v)
    (hn : LocalName lens r m.ghostIndex q v) : numberOf m v = q := by
  rw [numberOf, h.apply_of_name hn hq hv]

theorem name_of_lt {lens : List Nat} {r : Nat} {m : Map} (h : Faithful lens r m) (hno : ∀ q ∈ m.ghostIndex, ¬ Owns lens r q) {v : Nat}
    (hv : v < m.mainSize + m.ghostIndex.length) : ∃ q : Nat, Global lens q ∧ LocalName lens r m.ghostIndex q v := by
  by_cases h1 : v < m.mainSize
  · have ho : Owns lens r (before lens r + v : Int) := by rw [h.owns_iff]; omega
    refine ⟨before lens r + v, by have := owns_range ho; exact ⟨by push_cast; exact this.1, by push_cast; exact this.2⟩, Or.inl ⟨by simpa using ho, by push_cast; omega⟩⟩
  · have hk : v - m.mainSize < m.ghostIndex.length := by omega
    have hget := List.getElem?_eq_getElem hk
    have hmem := List.getElem_mem hk
    obtain ⟨a, b⟩ := h.loc.range _ hmem
    refine ⟨(m.ghostIndex[v - m.mainSize]).toNat, ?_, ?_⟩
    · rw [Int.toNat_of_nonneg a]; exact ⟨a, b⟩
    · rw [Int.toNat_of_nonneg a]
      exact Or.inr (Or.inl ⟨hno _ hmem, v - m.mainSize, hget, _, h.size, by omega⟩)

theorem name_lt {lens : List Nat} {r : Nat} {m : Map} (h : Faithful lens r m) {q v : Int} (hv : 0 ≤ v)
    (hn : LocalName lens r m.ghostIndex q v) (hq : 0 ≤ q) : v < m.mainSize + m.ghostIndex.length := by
  rcases hn with ⟨ho, e⟩ | ⟨_, k, hk, n, hsz, e⟩ | ⟨_, _, e⟩
  · have := (h.owns_iff q).1 ho; omega
  · rw [h.size] at hsz; cases hsz
    have := (List.getElem?_eq_some_iff.1 hk).1; omega
  · omega

/-- own entries come first -/
theorem name_own {lens : List Nat} {r : Nat} {m : Map} (h : Faithful lens r m) {q v : Int} (hv : 0 ≤ v) (hq : 0 ≤ q)
    (hn : LocalName lens r m.ghostIndex q v) : v < m.mainSize ↔ Owns lens r q := by
  rcases hn with ⟨ho, e⟩ | ⟨ho, k, hk, n, hsz, e⟩ | ⟨ho, _, e⟩
  · refine ⟨fun _ => ho, fun _ => ?_⟩
    have := (h.owns_iff q).1 ho; omega
  · rw [h.size] at hsz; cases hsz
    exact ⟨fun h => by omega, fun h => absurd h ho⟩
  · omega

theorem name_inj {lens : List Nat} {r : Nat} {m : Map} (h : Faithful lens r m) {q q' v : Int} (hv : 0 ≤ v) (hq : 0 ≤ q) (hq' : 0 ≤ q')
    (hn : LocalName lens r m.ghostIndex q v) (hn' : LocalName lens r m.ghostIndex q' v) : q = q' := by
  rw [← numberOf_eq h hq hv hn, ← numberOf_eq h hq' hv hn']

theorem name_exists {lens : List Nat} {r : Nat} {m : Map} (h : Faithful lens r m) {q : Nat}
    (hp : Owns lens r q ∨ ((q : Int) ∈ m.ghostIndex ∧ ¬ Owns lens r q)) : ∃ v : Nat, LocalName lens r m.ghostIndex q v := by
  rcases hp with ho | ⟨hm, ho⟩
  · obtain ⟨_, a, _⟩ := id ho
    exact ⟨((q : Int) - before lens r).toNat, Or.inl ⟨ho, by omega⟩⟩
  · obtain ⟨k, hk⟩ := List.mem_iff_getElem?.1 hm
    exact ⟨m.mainSize + k, Or.inr (Or.inl ⟨ho, k, hk, _, h.size, by push_cast; rfl⟩)⟩

/-! ### the faces of a rank -/

section rank

variable {per : Bool} {cl nl : List Nat} {G : List Cell} {gc : GOM} {ranks : List RankIn}

theorem slot_fine (hD : Distributed per cl nl G gc ranks) {i j : Nat} {a : Slot} (h : IsSlot per G i j a) : Fine per nl.sum a := by
  obtain ⟨C, hC, hj, rfl⟩ := h
  obtain ⟨hv, hn⟩ := hD.valid C (List.mem_of_getElem? hC)
  refine ⟨slot_good hv hj, ?_⟩
  simp only [slot]
  have ht := good_table C.type hv.known j (List.mem_range.2 hj)
  have hd : (fnodes C.type j).Nodup := by
    have := (face_lists_valid C.type hv.known j (List.mem_range.2 hj))
    exact this.2.2.1
  refine List.Nodup.map_on ?_ hd
  intro x hx y hy he
  have lx : x < C.nodes.length := by rw [hv.nodes]; exact ht.2.2.2 x hx
  have ly : y < C.nodes.length := by rw [hv.nodes]; exact ht.2.2.2 y hy
  rw [List.getElem?_eq_getElem lx, List.getElem?_eq_getElem ly, Option.getD_some, Option.getD_some] at he
  exact (List.Nodup.getElem_inj_iff hn).1 he

/-- global "same face" with a fixed way of sorting -/
theorem same_iff (hD : Distributed per cl nl G gc ranks) {srt : Sorter} (hs : Sorts srt) {i j i' j' : Nat} {a b : Slot}
    (ha : IsSlot per G i j a) (hb : IsSlot per G i' j' b) : Same per srt a b ↔ SameFace per a b :=
  sameFace_iff hs (slot_fine hD ha) (slot_fine hD hb).toGood (hD.conforming i j i' j' a b ha hb)

theorem sf_symm (hD : Distributed per cl nl G gc ranks) {i j i' j' : Nat} {a b : Slot}
    (ha : IsSlot per G i j a) (hb : IsSlot per G i' j' b) (h : SameFace per a b) : SameFace per b a :=
  (same_iff hD stable_sorts hb ha).1 (same_symm ((same_iff hD stable_sorts ha hb).2 h))

theorem sf_self (hD : Distributed per cl nl G gc ranks) {i j : Nat} {a : Slot} (ha : IsSlot per G i j a) : SameFace per a a :=
  (same_iff hD stable_sorts ha ha).1 (same_refl a)

theorem sf_trans (hD : Distributed per cl nl G gc ranks) {i j i' j' i'' j'' : Nat} {a b c : Slot}
    (ha : IsSlot per G i j a) (hb : IsSlot per G i' j' b) (hc : IsSlot per G i'' j'' c) (h : SameFace per a b) (h' : SameFace per b c) :
    SameFace per a c :=
  (same_iff hD stable_sorts ha hc).1 (same_trans stable_sorts (slot_fine hD ha).toGood (slot_fine hD hb).toGood
    ((same_iff hD stable_sorts ha hb).2 h) ((same_iff hD stable_sorts hb hc).2 h'))

theorem slot_unique {i j : Nat} {a b : Slot} (ha : IsSlot per G i j a) (hb : IsSlot per G i j b) : a = b := by
  obtain ⟨C, h1, _, rfl⟩ := ha
  obtain ⟨C', h2, _, rfl⟩ := hb
  rw [h1] at h2; cases h2; rfl

variable {r : Nat} {x : RankIn}

/-- local cell `l` of the rank is cell `i` of the mesh -/
abbrev Is (cl : List Nat) (r : Nat) (x : RankIn) (l i : Nat) : Prop := LocalName cl r x.cellMap.ghostIndex i l

theorem is_of_lt (hH : Holds cl nl G r x) {l : Nat} (hl : l < x.cells.length) : ∃ i, Is cl r x l i ∧ Global cl i := by
  obtain ⟨q, h1, h2⟩ := name_of_lt hH.cellMap.faithful hH.others (v := l) (by rw [← hH.size]; exact hl)
  exact ⟨q, h2, h1⟩

theorem is_lt (hH : Holds cl nl G r x) {l i : Nat} (h : Is cl r x l i) : l < x.cells.length := by
  have := name_lt hH.cellMap.faithful (by omega) h (by omega)
  rw [hH.size]; omega

theorem is_inj (hH : Holds cl nl G r x) {l i i' : Nat} (h : Is cl r x l i) (h' : Is cl r x l i') : i = i' := by
  have := name_inj hH.cellMap.faithful (by omega) (by omega) (by omega) h h'
  omega

theorem is_unique (hH : Holds cl nl G r x) {l l' i : Nat} (h : Is cl r x l i) (h' : Is cl r x l' i) : l = l' := by
  have := hH.cellMap.faithful.name_unique h h'
  omega

theorem is_own (hH : Holds cl nl G r x) {l i : Nat} (h : Is cl r x l i) : l < x.nOwn ↔ Owns cl r i := by
  rw [← name_own hH.cellMap.faithful (by omega) (by omega) h]
  simp [RankIn.nOwn]

/-- renaming of nodes on a rank -/
theorem localized_slot (hH : Holds cl nl G r x) {l i j : Nat} {C c : Cell} (hc : x.cells[l]? = some c) (hC : G[i]? = some C)
    (hv : Valid per nl.sum C) (hi : Is cl r x l i) (hj : j < (numFaces C.type).toNat) :
    Valid per x.nNodes c ∧ c.type = C.type ∧ slot per c j = rename (nameOf x.nodeMap) (slot per C j) ∧
    ∀ n ∈ (slot per C j).nodes, numberOf x.nodeMap (nameOf x.nodeMap n) = n := by
  have hL := hH.cells l i c C hc hC hi
  have hf := hH.nodeMap.faithful
  have hpair : ∀ (p : Nat) (hp : p < C.nodes.length), 0 ≤ C.nodes[p] ∧ 0 ≤ nameOf x.nodeMap C.nodes[p] ∧
      c.nodes[p]? = some (nameOf x.nodeMap C.nodes[p]) ∧ LocalName nl r x.nodeMap.ghostIndex C.nodes[p] (nameOf x.nodeMap C.nodes[p]) := by
    intro p hp
    have h0 := hv.range _ (List.getElem_mem hp)
    have hp' : p < c.nodes.length := by rw [hL.len]; exact hp
    obtain ⟨a, b⟩ := hL.nodes p _ _ (List.getElem?_eq_getElem hp) (List.getElem?_eq_getElem hp')
    have e := nameOf_eq hf h0.1 b
    rw [e]
    exact ⟨h0.1, a, List.getElem?_eq_getElem hp', b⟩
  have ht := good_table C.type hv.known j (List.mem_range.2 hj)
  refine ⟨⟨by rw [hL.type]; exact hv.known, by rw [hL.len, hv.nodes, hL.type], fun hp => by rw [hL.pbi, hv.pbi hp, hL.type], ?_⟩,
    hL.type, ?_, ?_⟩
  · intro q hq
    obtain ⟨p, hp, e⟩ := List.mem_iff_getElem.1 hq
    obtain ⟨a1, a2, a3, a4⟩ := hpair p (by rw [← hL.len]; exact hp)
    rw [List.getElem?_eq_getElem hp, e] at a3
    cases a3
    refine ⟨a2, ?_⟩
    have := name_lt hf a2 a4 a1
    simp only [RankIn.nNodes]; omega
  · simp only [slot, rename, hL.type, hL.pbi, List.map_map]
    congr 1
    apply List.map_congr_left
    intro a ha
    have hp : a < C.nodes.length := by rw [hv.nodes]; exact ht.2.2.2 a ha
    rw [(hpair a hp).2.2.1, Function.comp, List.getElem?_eq_getElem hp]; rfl
  · intro n hn
    simp only [slot, List.mem_map] at hn
    obtain ⟨a, ha, rfl⟩ := hn
    have hp : a < C.nodes.length := by rw [hv.nodes]; exact ht.2.2.2 a ha
    rw [List.getElem?_eq_getElem hp, Option.getD_some]
    obtain ⟨a1, a2, a3, a4⟩ := hpair a hp
    exact numberOf_eq hf a1 a2 a4

/-- a slot of a cell of the rank is a slot of the mesh, renamed -/
theorem local_slot (hD : Distributed per cl nl G gc ranks) (hx : ranks[r]? = some x) {l j : Nat} {s : Slot} (h : IsSlot per x.cells l j s) :
    ∃ i a, Is cl r x l i ∧ IsSlot per G i j a ∧ s = rename (nameOf x.nodeMap) a ∧
      ∀ n ∈ a.nodes, numberOf x.nodeMap (nameOf x.nodeMap n) = n := by
  have hH := hD.holds r x hx
  obtain ⟨c, hc, hj, rfl⟩ := h
  obtain ⟨i, hi, hg⟩ := is_of_lt hH (List.getElem?_eq_some_iff.1 hc).1
  have hiG : i < G.length := by rw [hD.len]; have := hg.2; omega
  have hC := List.getElem?_eq_getElem hiG
  have hv := (hD.valid _ (List.getElem_mem hiG)).1
  have hj' : j < (numFaces G[i].type).toNat := by
    have := (hH.cells l i c _ hc hC hi).type
    rw [← this]; exact hj
  obtain ⟨_, _, h3, h4⟩ := localized_slot (per := per) hH hc hC hv hi hj'
  exact ⟨i, _, hi, ⟨_, hC, hj', rfl⟩, h3, h4⟩

theorem global_slot (hD : Distributed per cl nl G gc ranks) (hx : ranks[r]? = some x) {l i j : Nat} {a : Slot} (hi : Is cl r x l i)
    (h : IsSlot per G i j a) : IsSlot per x.cells l j (rename (nameOf x.nodeMap) a) ∧
      ∀ n ∈ a.nodes, numberOf x.nodeMap (nameOf x.nodeMap n) = n := by
  have hH := hD.holds r x hx
  obtain ⟨C, hC, hj, rfl⟩ := h
  have hl := is_lt hH hi
  have hc := List.getElem?_eq_getElem hl
  obtain ⟨_, h2, h3, h4⟩ := localized_slot (per := per) hH hc hC (hD.valid _ (List.mem_of_getElem? hC)).1 hi hj
  exact ⟨⟨_, hc, by rw [h2]; exact hj, h3.symm⟩, h4⟩

/-- two local slots are the same face exactly if they are in the mesh -/
theorem same_local (hD : Distributed per cl nl G gc ranks) (hx : ranks[r]? = some x) {srt : Sorter} (hs : Sorts srt) {i j i' j' l l' : Nat} {a b : Slot}
    (ha : IsSlot per G i j a) (hb : IsSlot per G i' j' b) (hi : Is cl r x l i) (hi' : Is cl r x l' i') :
    Same per srt (rename (nameOf x.nodeMap) a) (rename (nameOf x.nodeMap) b) ↔ SameFace per a b := by
  have fa := slot_fine hD ha
  have fb := slot_fine hD hb
  obtain ⟨ga1, ga2⟩ := global_slot hD hx hi ha
  obtain ⟨gb1, gb2⟩ := global_slot hD hx hi' hb
  have hgood : ∀ {l j : Nat} {s : Slot}, IsSlot per x.cells l j s → Good per x.nNodes s := by
    intro l j s h
    have hH := hD.holds r x hx
    obtain ⟨c, hc, hj, rfl⟩ := h
    obtain ⟨i, hi, hg⟩ := is_of_lt hH (List.getElem?_eq_some_iff.1 hc).1
    have hiG : i < G.length := by rw [hD.len]; have := hg.2; omega
    have hC := List.getElem?_eq_getElem hiG
    have hv := (hD.valid _ (List.getElem_mem hiG)).1
    have ht := (hH.cells l i c _ hc hC hi).type
    obtain ⟨hvc, _⟩ := localized_slot (per := per) hH hc hC hv hi (by rw [← ht]; exact hj)
    exact slot_good hvc hj
  rw [← sameFace_rename_iff ga2 gb2]
  refine sameFace_iff hs ⟨hgood ga1, ?_⟩ (hgood gb1) ?_
  · simp only [rename]
    refine List.Nodup.map_on ?_ fa.nodup
    intro p hp q hq he
    rw [← ga2 p hp, ← ga2 q hq, he]
  · intro h1 h2
    rw [corners_rename, corners_rename] at h2
    have h3 := h2.map (numberOf x.nodeMap)
    rw [List.map_map, List.map_map] at h3
    have e1 : (corners a).map (numberOf x.nodeMap ∘ nameOf x.nodeMap) = corners a := by
      conv => rhs; rw [← List.map_id (corners a)]
      exact List.map_congr_left (fun n hn => ga2 n (List.mem_of_mem_take hn))
    have e2 : (corners b).map (numberOf x.nodeMap ∘ nameOf x.nodeMap) = corners b := by
      conv => rhs; rw [← List.map_id (corners b)]
      exact List.map_congr_left (fun n hn => gb2 n (List.mem_of_mem_take hn))
    rw [e1, e2] at h3
    exact (hD.conforming _ _ _ _ _ _ ha hb h1 h3).map _

theorem local_valid (hD : Distributed per cl nl G gc ranks) (hx : ranks[r]? = some x) : ∀ c ∈ x.cells, Valid per x.nNodes c := by
  intro c hc
  have hH := hD.holds r x hx
  obtain ⟨l, hl⟩ := List.mem_iff_getElem?.1 hc
  obtain ⟨i, hi, hg⟩ := is_of_lt hH (List.getElem?_eq_some_iff.1 hl).1
  have hiG : i < G.length := by rw [hD.len]; have := hg.2; omega
  have hC := List.getElem?_eq_getElem hiG
  have hv := (hD.valid _ (List.getElem_mem hiG)).1
  have hL := hH.cells l i c _ hl hC hi
  refine ⟨by rw [hL.type]; exact hv.known, by rw [hL.len, hv.nodes, hL.type], fun hp => by rw [hL.pbi, hv.pbi hp, hL.type], ?_⟩
  intro q hq
  obtain ⟨p, hp, e⟩ := List.mem_iff_getElem.1 hq
  have hp' : p < G[i].nodes.length := by rw [← hL.len]; exact hp
  obtain ⟨a, b⟩ := hL.nodes p _ _ (List.getElem?_eq_getElem hp') (List.getElem?_eq_getElem hp)
  rw [e] at a b
  refine ⟨a, ?_⟩
  have := name_lt hH.nodeMap.faithful a b (hv.range _ (List.getElem_mem hp')).1
  simp only [RankIn.nNodes]; omega

/-- the matching of a rank runs to the end -/
theorem rank_match (hD : Distributed per cl nl G gc ranks) (hx : ranks[r]? = some x) {srt : Sorter} (hs : Sorts srt) :
    ∃ st rows, matchFaces per srt x.nNodes x.cells = .ok (st, rows) ∧ Matching per srt x.cells st.faces rows := by
  have hH := hD.holds r x hx
  obtain ⟨h1, h2, h3⟩ := faces_match per srt hs x.nNodes x.cells (local_valid hD hx)
  cases hm : matchFaces per srt x.nNodes x.cells with
  | ok p => obtain ⟨st, rows⟩ := p; exact ⟨st, rows, rfl, h3 st rows hm⟩
  | ub => exact absurd hm h1
  | abort =>
    exfalso
    obtain ⟨l1, j1, l2, j2, l3, j3, s1, s2, s3, p1, p2, p3, d12, d13, d23, q12, q13, q23⟩ := h2.1 hm
    obtain ⟨i1, a1, n1, t1, rfl, _⟩ := local_slot hD hx p1
    obtain ⟨i2, a2, n2, t2, rfl, _⟩ := local_slot hD hx p2
    obtain ⟨i3, a3, n3, t3, rfl, _⟩ := local_slot hD hx p3
    have e12 := (same_local hD hx hs t1 t2 n1 n2).1 q12
    have e13 := (same_local hD hx hs t1 t3 n1 n3).1 q13
    have hne : ∀ {l l' i i' j j' : Nat}, Is cl r x l i → Is cl r x l' i' → (l, j) ≠ (l', j') → (i, j) ≠ (i', j') := by
      intro l l' i i' j j' h h' hne he
      simp only [Prod.mk.injEq] at he
      obtain ⟨rfl, rfl⟩ := he
      exact hne (by rw [is_unique hH h h'])
    rcases hD.two _ _ _ _ _ _ _ _ _ t1 t2 t3 e12 e13 with h | h | h
    · exact hne n1 n2 d12 h
    · exact hne n1 n3 d13 h
    · exact hne n2 n3 d23 h

end rank

end DNDSR.Faces
