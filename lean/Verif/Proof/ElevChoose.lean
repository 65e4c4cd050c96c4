import Verif.Proof.ElevSpan
import Verif.Proof.ReorderRun

/-!
# Who makes a new node: the loop over the neighbours on one rank
-/

namespace DNDSR.Elev

open DNDSR.IMap DNDSR.MeshAdj DNDSR.Ghost
open DNDSR.Faces hiding rename St search
open DNDSR.Reorder hiding rename
open DNDSR.Elem hiding V3
open DNDSR.Bits (Mark)
open DNDSR.Per (V3 Periodicity)

variable {per : Bool} {P : Periodicity} {ps : List Piece} {X : Int → V3}
variable {r : Nat} {p : Piece} {s : Reorder.St} {a : Adj} {x : Held}

/-- the rank holds the cell -/
def Keeps (ps : List Piece) (r : Nat) (x : Held) (c : Int) : Prop := Owns (cellLens ps) r c ∨ c ∈ x.cellMap.ghostIndex

theorem keeps_name (h : Has per ps r p s a x) {c : Int} (hc : Global (cellLens ps) c) (hk : Keeps ps r x c) :
    ∃ v : Nat, nameOf s.cellMap c = v ∧ LocalName (cellLens ps) r s.cellMap.ghostIndex c v ∧ s.cellMap.apply (-1) v = .ok c := by
  have hF := h.held.cellMap.faithful
  obtain ⟨n, rfl⟩ := Int.eq_ofNat_of_zero_le hc.1
  obtain ⟨v, hv⟩ := name_exists hF (q := n) (by
    rcases hk with hk | hk
    · exact Or.inl hk
    · exact Or.inr ⟨hk, ((h.held.ghosts _).1 hk).1⟩)
  rw [h.cmap]
  exact ⟨v, nameOf_eq hF hc.1 hv, hv, hF.apply_of_name hv hc.1 (by omega)⟩

/-- what a rank reads of a cell it holds -/
theorem keeps_cell (h : Has per ps r p s a x) (hM : MeshOk per ps) {c : Int} {C : Cell} (hC : IsCell ps c C) (hk : Keeps ps r x c) {v : Nat}
    (hv : LocalName (cellLens ps) r s.cellMap.ghostIndex c v) :
    s.info[v]? = some (C.type, C.pbi) ∧ s.prim.cell2node[v]? = some (C.nodes.map (nameOf s.nodeMap)) ∧
    ∀ q ∈ C.nodes, 0 ≤ q ∧ 0 ≤ nameOf s.nodeMap q ∧ LocalName (nodeLens ps) r s.nodeMap.ghostIndex q (nameOf s.nodeMap q) ∧
      s.nodeMap.apply (-1) (nameOf s.nodeMap q) = .ok q := by
  have hF := h.held.cellMap.faithful
  have hFn := h.held.nodeMap.faithful
  rw [h.cmap] at hv
  rw [h.nmap]
  have hlt : v < x.cells.length := by
    rw [h.held.size]
    have := name_lt hF (by omega) hv hC.1
    omega
  have hc : x.cells[v]? = some C := by
    rw [List.getElem?_eq_getElem hlt, h.held.cells v c _ C (List.getElem?_eq_getElem hlt) hC hv]
  have hval := (hM.valid C (List.mem_of_getElem? hC.2)).1
  have hc' : (x.cells.map (·.nodes))[v]? = some C.nodes := by rw [List.getElem?_map, hc]; rfl
  have hl : v < s.prim.cell2node.length := by rw [← h.prim.c2n.1]; exact (List.getElem?_eq_some_iff.1 hc').1
  obtain ⟨h1, h2⟩ := h.prim.c2n.2 v _ _ hc' (List.getElem?_eq_getElem hl)
  have key : ∀ (k : Nat) (q : Int), C.nodes[k]? = some q → ∃ w, s.prim.cell2node[v][k]? = some w ∧ 0 ≤ q ∧ 0 ≤ w ∧ nameOf x.nodeMap q = w ∧
      LocalName (nodeLens ps) r x.nodeMap.ghostIndex q w := by
    intro k q hq
    have hk : k < s.prim.cell2node[v].length := by rw [← h1]; exact (List.getElem?_eq_some_iff.1 hq).1
    obtain ⟨h3, h4⟩ := h2 k q _ hq (List.getElem?_eq_getElem hk)
    have hq0 := (hval.range q (List.mem_of_getElem? hq)).1
    exact ⟨_, List.getElem?_eq_getElem hk, hq0, h3, nameOf_eq hFn hq0 h4, h4⟩
  refine ⟨by rw [h.info, List.getElem?_map, hc]; rfl, ?_, ?_⟩
  · rw [List.getElem?_eq_getElem hl]
    congr 1
    refine List.ext_getElem? fun k => ?_
    rw [List.getElem?_map]
    by_cases hk : k < C.nodes.length
    · obtain ⟨v, e1, _, _, e2, _⟩ := key k _ (List.getElem?_eq_getElem hk)
      rw [e1, List.getElem?_eq_getElem hk, Option.map_some, e2]
    · rw [List.getElem?_eq_none (by omega), List.getElem?_eq_none (by omega)]; rfl
  · intro q hq
    obtain ⟨k, hk⟩ := List.mem_iff_getElem?.1 hq
    obtain ⟨w, _, e1, e2, e3, e4⟩ := key k q hk
    rw [e3]
    exact ⟨e1, e2, e4, hFn.apply_of_name e4 e1 e2⟩

/-- names of nodes of held cells are different for different nodes -/
theorem keeps_inj (h : Has per ps r p s a x) (hM : MeshOk per ps) {c d : Int} {C D : Cell} (hC : IsCell ps c C) (hk : Keeps ps r x c) (hD : IsCell ps d D)
    (hk' : Keeps ps r x d) {q q' : Int} (hq : q ∈ C.nodes) (hq' : q' ∈ D.nodes) (e : nameOf s.nodeMap q = nameOf s.nodeMap q') : q = q' := by
  obtain ⟨v, _, hv, _⟩ := keeps_name h (isCell_global hC) hk
  obtain ⟨w, _, hw, _⟩ := keeps_name h (isCell_global hD) hk'
  obtain ⟨_, _, _, e1⟩ := (keeps_cell h hM hC hk hv).2.2 q hq
  obtain ⟨_, _, _, e2⟩ := (keeps_cell h hM hD hk' hw).2.2 q' hq'
  rw [e, e2] at e1
  exact (Res.ok.inj e1).symm

/-- the neighbours of an own cell under their names -/
theorem own_names (h : Has per ps r p s a x) {l : Nat} {C : Cell} (hC : p.cells[l]? = some C) :
    ∃ gs, x.c2c[l]? = some gs ∧ s.prim.cell2cell[l]? = some (gs.map (nameOf s.cellMap)) ∧ gs.Nodup ∧
      (∀ c, c ∈ gs ↔ c ≠ (before (cellLens ps) r : Int) + l ∧ ∃ q, HasNode ps ((before (cellLens ps) r : Int) + l) q ∧ HasNode ps c q) ∧
      ∀ c ∈ gs, Keeps ps r x c ∧ Global (cellLens ps) c := by
  have hp := h.piece
  have hx := h.held
  have hy := h.prim
  have hF := hx.cellMap.faithful
  have hi := (List.getElem?_eq_some_iff.1 hC).1
  have hoi := owns_of_index hp hi
  have hl : l < x.c2c.length := by rw [hx.c2cSize]; exact (List.getElem?_eq_some_iff.1 (own_cell hp hx hC)).1
  have hl' : l < s.prim.cell2cell.length := by rw [← hy.c2c.1]; exact hl
  have hni : LocalName (cellLens ps) r x.cellMap.ghostIndex ((before (cellLens ps) r : Int) + l) l := Or.inl ⟨hoi, by omega⟩
  obtain ⟨n1, n2⟩ := hx.c2c l _ _ (List.getElem?_eq_getElem hl) (by omega) hni
  obtain ⟨h1, h2⟩ := hy.c2c.2 l _ _ (List.getElem?_eq_getElem hl) (List.getElem?_eq_getElem hl')
  refine ⟨_, List.getElem?_eq_getElem hl, ?_, n1, n2, ?_⟩
  · rw [List.getElem?_eq_getElem hl']
    congr 1
    refine List.ext_getElem? fun k => ?_
    rw [List.getElem?_map]
    by_cases hk : k < (x.c2c[l]).length
    · have hk' : k < (s.prim.cell2cell[l]).length := by omega
      obtain ⟨_, z, _, h4⟩ := (n2 _).1 (List.getElem_mem hk)
      have hg := hasNode_global h4
      have hnm := named_owner (h2 k _ _ (List.getElem?_eq_getElem hk) (List.getElem?_eq_getElem hk')) hg.1
      rw [List.getElem?_eq_getElem hk, List.getElem?_eq_getElem hk', Option.map_some, h.cmap, nameOf_eq hF hg.1 hnm]
    · rw [List.getElem?_eq_none (by omega), List.getElem?_eq_none (by omega)]; rfl
  · intro c hc
    obtain ⟨_, z, h3, h4⟩ := (n2 c).1 hc
    exact ⟨touches_kept hx (c := c) ⟨_, z, hoi, h3, h4⟩, hasNode_global h4⟩

theorem at64_nat {α : Type} {l : List α} {v : Nat} {y : α} (h : l[v]? = some y) : at64 l (v : Int) = .ok y := by
  rw [at64, if_pos (by omega)]; exact (idx_ok_iff _ _ _).2 (by simpa using h)

/-- a cell that has all nodes of the span -/
def Contains (ps : List Piece) (sp : List Int) (c : Int) : Prop := ∃ D, IsCell ps c D ∧ ∀ q ∈ sp, q ∈ D.nodes

/-- the inclusion test in local numbers -/
theorem includes_iff (h : Has per ps r p s a x) (hM : MeshOk per ps) {c : Int} {C : Cell} (hC : IsCell ps c C) (hk : Keeps ps r x c) {sp : List Int}
    (hsp : ∀ q ∈ sp, q ∈ C.nodes) (hnd : sp.Nodup) {d : Int} {D : Cell} (hD : IsCell ps d D) (hk' : Keeps ps r x d) :
    includes (sortIdx (D.nodes.map (nameOf s.nodeMap))) (sortIdx (sp.map (nameOf s.nodeMap))) = true ↔ ∀ q ∈ sp, q ∈ D.nodes := by
  have hnd' : (sp.map (nameOf s.nodeMap)).Nodup := by
    refine hnd.map_on ?_
    intro q hq q' hq' e
    exact keeps_inj h hM hC hk hC hk (hsp q hq) (hsp q' hq') e
  rw [includes_spec _ _ (sortIdx_sorted _) (sorted_strict hnd')]
  constructor
  · intro hi q hq
    have := hi (nameOf s.nodeMap q) ((sortIdx_perm _).mem_iff.2 (List.mem_map.2 ⟨q, hq, rfl⟩))
    obtain ⟨q', hq', e⟩ := List.mem_map.1 ((sortIdx_perm _).mem_iff.1 this)
    rw [← keeps_inj h hM hD hk' hC hk hq' (hsp q hq) e]
    exact hq'
  · intro hi b hb
    obtain ⟨q, hq, rfl⟩ := List.mem_map.1 ((sortIdx_perm _).mem_iff.1 hb)
    exact (sortIdx_perm _).mem_iff.2 (List.mem_map.2 ⟨q, hi q hq, rfl⟩)

theorem findOwner_spec (h : Has per ps r p s a x) (hM : MeshOk per ps) {l : Nat} {C : Cell} (hC : p.cells[l]? = some C) {sp : List Int}
    (hsp : ∀ q ∈ sp, q ∈ C.nodes) (hnd : sp.Nodup) : ∀ (gs : List Int) (best arg : Int) (k : Nat),
    (∀ c ∈ gs, Keeps ps r x c ∧ Global (cellLens ps) c ∧ c ≠ (before (cellLens ps) r : Int) + l) →
    ∃ b o, findOwner s l (sortIdx (sp.map (nameOf s.nodeMap))) best arg k (gs.map (nameOf s.cellMap)) = .ok (b, o) ∧
      (∀ c ∈ gs, Contains ps sp c → b ≤ c) ∧
      ((b = best ∧ o = arg) ∨ (b < best ∧ ∃ n : Nat, o = k + n ∧ gs[n]? = some b ∧ Contains ps sp b))
  | [], best, arg, k, _ => ⟨best, arg, rfl, by simp, Or.inl ⟨rfl, rfl⟩⟩
  | c :: cs, best, arg, k, hg => by
      have hIC := isCell_own h.piece hC
      have hoi := owns_of_index h.piece (List.getElem?_eq_some_iff.1 hC).1
      have hF := h.held.cellMap.faithful
      obtain ⟨hk, hgl, hne⟩ := hg c (List.mem_cons_self ..)
      obtain ⟨v, e1, e2, e3⟩ := keeps_name h hgl hk
      obtain ⟨D, hD⟩ := global_isCell hgl
      obtain ⟨f1, f2, -⟩ := keeps_cell h hM hD hk e2
      have hvl : (v : Int) ≠ l := by
        intro e
        rw [h.cmap] at e2
        have hni : LocalName (cellLens ps) r x.cellMap.ghostIndex ((before (cellLens ps) r : Int) + l) l := Or.inl ⟨hoi, by omega⟩
        rw [e] at e2
        exact hne (name_inj hF (by omega) hgl.1 (by omega) e2 hni)
      have hinc := includes_iff h hM hIC (Or.inl hoi) hsp hnd hD hk
      have hcon : Contains ps sp c ↔ ∀ q ∈ sp, q ∈ D.nodes := by
        constructor
        · rintro ⟨D', hD', h'⟩; rw [isCell_unique hD hD']; exact h'
        · intro h'; exact ⟨D, hD, h'⟩
      have hrest : ∀ c' ∈ cs, Keeps ps r x c' ∧ Global (cellLens ps) c' ∧ c' ≠ (before (cellLens ps) r : Int) + l :=
        fun c' hc' => hg c' (List.mem_cons_of_mem _ hc')
      rw [List.map_cons, findOwner, e1, if_neg hvl, at64_nat f2, Res.ok_bind, e3, Res.ok_bind]
      by_cases ht : c < best ∧ includes (sortIdx (D.nodes.map (nameOf s.nodeMap))) (sortIdx (sp.map (nameOf s.nodeMap))) = true
      · rw [if_pos ht]
        obtain ⟨b, o, g1, g2, g3⟩ := findOwner_spec h hM hC hsp hnd cs c k (k + 1) hrest
        have hcc := hcon.2 (hinc.1 ht.2)
        refine ⟨b, o, g1, ?_, ?_⟩
        · intro c' hc' hcon'
          rcases List.mem_cons.1 hc' with rfl | hc'
          · rcases g3 with ⟨rfl, _⟩ | ⟨h', _⟩
            · exact Int.le_refl _
            · omega
          · exact g2 c' hc' hcon'
        · rcases g3 with ⟨rfl, rfl⟩ | ⟨h', n, e, h3, h4⟩
          · exact Or.inr ⟨ht.1, 0, by simp, by simp, hcc⟩
          · exact Or.inr ⟨by omega, n + 1, by push_cast at e ⊢; omega, by simpa using h3, h4⟩
      · rw [if_neg ht]
        obtain ⟨b, o, g1, g2, g3⟩ := findOwner_spec h hM hC hsp hnd cs best arg (k + 1) hrest
        refine ⟨b, o, g1, ?_, ?_⟩
        · intro c' hc' hcon'
          rcases List.mem_cons.1 hc' with rfl | hc'
          · have : ¬ c' < best := fun hlt => ht ⟨hlt, hinc.2 (hcon.1 hcon')⟩
            rcases g3 with ⟨rfl, _⟩ | ⟨h', _⟩ <;> omega
          · exact g2 c' hc' hcon'
        · rcases g3 with h' | ⟨h', n, e, h3, h4⟩
          · exact Or.inl h'
          · exact Or.inr ⟨h', n + 1, by push_cast at e ⊢; omega, by simpa using h3, h4⟩

/-! ### positions -/

theorem coordByBits_eq (c : V3) (b : Mark) : Per.coordByBits P c b = .ok (forward P b c) := by
  unfold Per.coordByBits forward
  by_cases hb : b = 0
  · subst hb; simp [stepIf, pure]
  · rw [if_neg hb]
    have e1 : ∀ y, Per.transCoord P y (-1) = .ok (shift P 1 y) := fun y => by rw [Per.transCoord, show Per.slot (-1) = .ok 1 from rfl]; rfl
    have e2 : ∀ y, Per.transCoord P y (-2) = .ok (shift P 2 y) := fun y => by rw [Per.transCoord, show Per.slot (-2) = .ok 2 from rfl]; rfl
    have e3 : ∀ y, Per.transCoord P y (-3) = .ok (shift P 3 y) := fun y => by rw [Per.transCoord, show Per.slot (-3) = .ok 3 from rfl]; rfl
    have e : ∀ (t : Bool) (f : V3 → Res V3) (g : V3 → V3) (y : V3), (∀ z, f z = .ok (g z)) → Per.optStep t f y = .ok (stepIf t g y) := by
      intro t f g y hf
      unfold Per.optStep stepIf
      cases t <;> simp [hf]
    simp only [e _ _ _ _ e1, e _ _ _ _ e2, e _ _ _ _ e3, Res.ok_bind, Bits.getP1, Bits.getP2, Bits.getP3]

theorem coordBackByBits_eq (c : V3) (b : Mark) : Per.coordBackByBits P c b = .ok (backward P b c) := by
  unfold Per.coordBackByBits backward
  by_cases hb : b = 0
  · subst hb; simp [stepIf, pure]
  · rw [if_neg hb]
    have e1 : ∀ y, Per.transCoordBack P y (-1) = .ok (unshift P 1 y) := fun y => by rw [Per.transCoordBack, show Per.slot (-1) = .ok 1 from rfl]; rfl
    have e2 : ∀ y, Per.transCoordBack P y (-2) = .ok (unshift P 2 y) := fun y => by rw [Per.transCoordBack, show Per.slot (-2) = .ok 2 from rfl]; rfl
    have e3 : ∀ y, Per.transCoordBack P y (-3) = .ok (unshift P 3 y) := fun y => by rw [Per.transCoordBack, show Per.slot (-3) = .ok 3 from rfl]; rfl
    have e : ∀ (t : Bool) (f : V3 → Res V3) (g : V3 → V3) (y : V3), (∀ z, f z = .ok (g z)) → Per.optStep t f y = .ok (stepIf t g y) := by
      intro t f g y hf
      unfold Per.optStep stepIf
      cases t <;> simp [hf]
    simp only [e _ _ _ _ e1, e _ _ _ _ e2, e _ _ _ _ e3, Res.ok_bind, Bits.getP1, Bits.getP2, Bits.getP3]

theorem commonBits_eq (l : List Mark) : Bits.bitandReduce l = commonBits l := rfl

/-- the positions a cell sees its nodes at -/
theorem cellCoords_spec (hE : Elevatable per P ps X) {C : Cell} (hC : C ∈ whole ps) {f : Int → Int} {coords : List V3}
    (hc : ∀ q ∈ C.nodes, at64 coords (f q) = .ok (X q)) :
    cellCoords per P coords (C.nodes.map f) C.pbi = .ok ((List.range (numNodes C.type).toNat).map (seen per P X C)) := by
  have hl := hE.len hC
  unfold cellCoords
  rw [forRanks_ok]
  refine ⟨by simp [hl], ?_⟩
  intro i v hv
  rw [List.getElem?_map] at hv
  obtain ⟨q, hq, rfl⟩ := Option.map_eq_some_iff.1 hv
  have hi : i < (numNodes C.type).toNat := by rw [← hl]; exact (List.getElem?_eq_some_iff.1 hq).1
  refine ⟨_, by rw [List.getElem?_map, List.getElem?_range hi]; rfl, ?_⟩
  rw [hc q (List.mem_of_getElem? hq), Res.ok_bind, Nat.zero_add]
  cases per with
  | false => simp [seen, hq]
  | true =>
    have hpb := (hE.mesh.valid C hC).1.pbi rfl
    have hb : C.pbi[i]? = some (C.pbi[i]'(by rw [hpb]; exact hi)) := List.getElem?_eq_getElem (by rw [hpb]; exact hi)
    rw [if_pos rfl, (idx_ok_iff _ _ _).2 hb, Res.ok_bind, coordByBits_eq]
    simp [seen, hq, hb]

/-- the position of a new node -/
theorem newPoint_spec (hE : Elevatable per P ps X) {C : Cell} (hC : C ∈ whole ps) {k : Nat} (hk : k < (numElev C.type).toNat) :
    newPoint per P C.type ((List.range (numNodes C.type).toNat).map (seen per P X C)) C.pbi k =
      .ok (nodePoint per P X C k, if per then commonBits (spanBits C k) else 0#8) := by
  have ho := hE.order C hC
  have hlt := (span_lt C.type ho k (List.mem_range.2 hk)).2
  have e : (span C.type k).map (fun a => ((List.range (numNodes C.type).toNat).map (seen per P X C))[a]?.getD default) =
      (span C.type k).map (seen per P X C) := by
    refine List.map_congr_left ?_
    intro b hb
    rw [List.getElem?_map, List.getElem?_range (hlt b hb)]; rfl
  unfold newPoint
  rw [span_extract C.type ho hk _ (by simp), Res.ok_bind, e]
  cases per with
  | false => simp [nodePoint, middle]
  | true =>
    have hpb := (hE.mesh.valid C hC).1.pbi rfl
    simp only [if_true]
    rw [span_extract C.type ho hk _ hpb, Res.ok_bind]
    simp only [commonBits_eq, coordBackByBits_eq, Res.ok_bind, nodePoint, middle, spanBits, if_true, List.length_map]
    rfl

/-! ### one new node of an own cell -/

/-- what is found for new node `k` of cell `i`, whose neighbours are `gs` -/
structure ChoiceOk (per : Bool) (P : Periodicity) (ps : List Piece) (X : Int → V3) (i k : Nat) (C : Cell) (gs : List Int) (c : Choice) : Prop where
  own : c.own = true ↔ First ps i k C
  other : c.own = false → ∃ (n m k' : Nat) (D : Cell), c.arg = n ∧ gs[n]? = some (m : Int) ∧ First ps m k' D ∧ (spanOf D k').Perm (spanOf C k)
  at_ : c.at_ = nodePoint per P X C k
  bits : c.bits = if per then commonBits (spanBits C k) else 0#8

theorem choose_spec (hE : Elevatable per P ps X) (h : Has per ps r p s a x) {l : Nat} {C : Cell} (hC : p.cells[l]? = some C) {k : Nat}
    (hk : k < (numElev C.type).toNat) {gs : List Int}
    (hgs : ∀ c, c ∈ gs ↔ c ≠ (before (cellLens ps) r : Int) + l ∧ ∃ q, HasNode ps ((before (cellLens ps) r : Int) + l) q ∧ HasNode ps c q)
    (hgk : ∀ c ∈ gs, Keeps ps r x c ∧ Global (cellLens ps) c) :
    ∃ c, choose per P s l ((before (cellLens ps) r : Int) + l) (C.type, C.pbi) (C.nodes.map (nameOf s.nodeMap)) (gs.map (nameOf s.cellMap))
        ((List.range (numNodes C.type).toNat).map (seen per P X C)) k = .ok c ∧ ChoiceOk per P ps X (before (cellLens ps) r + l) k C gs c := by
  have hIC := isCell_own h.piece hC
  have hmem : C ∈ whole ps := mem_whole (List.mem_of_getElem? h.piece) (List.mem_of_getElem? hC)
  have hnew : IsNew ps (before (cellLens ps) r + l) k C := ⟨by rw [whole_at h.piece (List.getElem?_eq_some_iff.1 hC).1]; exact hC, hk⟩
  have ho := hE.order C hmem
  have hlt := (span_lt C.type ho k (List.mem_range.2 hk)).2
  obtain ⟨hne, hsp⟩ := hE.span_mem hnew
  have e : (span C.type k).map (fun b => (C.nodes.map (nameOf s.nodeMap))[b]?.getD default) = (spanOf C k).map (nameOf s.nodeMap) := by
    rw [spanOf, List.map_map]
    refine List.map_congr_left ?_
    intro b hb
    rw [List.getElem?_map, hE.at_node hmem (hlt b hb)]; rfl
  obtain ⟨b, o, g1, g2, g3⟩ := findOwner_spec h hE.mesh hC hsp (hE.span_nodup hnew) gs ((before (cellLens ps) r : Int) + l) (-1) 0
    (fun c hc => ⟨(hgk c hc).1, (hgk c hc).2, ((hgs c).1 hc).1⟩)
  have hself : ((before (cellLens ps) r + l : Nat) : Int) = (before (cellLens ps) r : Int) + l := by push_cast; rfl
  -- every cell with the span is the cell itself or a neighbour
  have hall : ∀ (j : Nat) (D : Cell), (whole ps)[j]? = some D → (∀ q ∈ spanOf C k, q ∈ D.nodes) → (j : Int) ≠ (before (cellLens ps) r : Int) + l →
      b ≤ (j : Int) := by
    intro j D hD hin hj
    have hID : IsCell ps (j : Int) D := ⟨by omega, by simpa using hD⟩
    obtain ⟨q, hq⟩ := List.exists_mem_of_ne_nil _ hne
    exact g2 j ((hgs _).2 ⟨hj, q, ⟨C, hIC, hsp q hq⟩, ⟨D, hID, hin q hq⟩⟩) ⟨D, hID, hin⟩
  refine ⟨⟨decide (b = (before (cellLens ps) r : Int) + l), o, nodePoint per P X C k, if per then commonBits (spanBits C k) else 0#8⟩, ?_, ?_, ?_, rfl, rfl⟩
  · unfold choose
    simp only
    rw [span_extract C.type ho hk _ (by rw [List.length_map, hE.len hmem]), Res.ok_bind, newPoint_spec hE hmem hk, Res.ok_bind, e, g1, Res.ok_bind]
  · rw [decide_eq_true_iff]
    constructor
    · intro hb
      refine ⟨hnew, ?_⟩
      intro j D hD hin
      by_cases hj : (j : Int) = (before (cellLens ps) r : Int) + l
      · omega
      · have := hall j D hD hin hj; omega
    · intro hf
      rcases g3 with ⟨hb, _⟩ | ⟨hb, n, _, _, D, hD, hin⟩
      · exact hb
      · have := hf.2 b.toNat D hD.2 hin
        have := hD.1
        omega
  · intro hb
    have hb : b ≠ (before (cellLens ps) r : Int) + l := of_decide_eq_false hb
    rcases g3 with ⟨hb', _⟩ | ⟨hb', n, e1, e2, D, hD, hin⟩
    · exact absurd hb' hb
    · obtain ⟨m, rfl⟩ := Int.eq_ofNat_of_zero_le hD.1
      have hDm : (whole ps)[m]? = some D := by simpa using hD.2
      obtain ⟨k', hk', hp⟩ := hE.spans _ k m C D hnew hDm hin
      refine ⟨n, m, k', D, by simpa using e1, e2, ⟨hk', ?_⟩, hp⟩
      intro j D' hD' hin'
      by_cases hj : (j : Int) = (before (cellLens ps) r : Int) + l
      · omega
      · have := hall j D' hD' (fun q hq => hin' q (hp.mem_iff.2 hq)) hj
        omega

end DNDSR.Elev
