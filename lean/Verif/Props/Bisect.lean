import Verif.Proof.BisectRun
import Verif.Proof.BisectClosed
import Verif.Proof.BisectElev
import Verif.Props.FacesGhost

/-!
# C103: cutting a mesh of order two into elements of order one
-/

namespace DNDSR.Bisect

open DNDSR.IMap DNDSR.MeshAdj DNDSR.Faces DNDSR.Elev DNDSR.Ghost
open DNDSR.Elem hiding V3
open DNDSR.Bits (Mark)
open DNDSR.Per (V3 Periodicity)

/-- **C103.** On every rank the cut succeeds.  Each cell is replaced, in order, by its parts with its zone, tetrahedra and pyramids being cut along
a shortest of their inner diagonals; each boundary element is replaced by its parts with its zone; the nodes stay. -/
theorem cut_rank (per : Bool) (P : Periodicity) (X : Int → V3) (nl cl : List Nat) (x : Rank) (h : RankOk per X nl cl x) :
    ∃ V, Chosen per P X x.cells V ∧ bisect per P x =
      .ok ⟨childCells per x.cells V, childBnds (x.bnds.map (fun b => (b.1, b.2.1))), x.coords.take x.nodeMap.mainSize⟩ :=
  bisect_rank h

/-- **C103.** The table that belongs to a diagonal is the only one that has a part with both ends of the diagonal. -/
theorem cut_diagonal (t : ElemType) (ht : t = .tet10 ∨ t = .pyramid14) (v w : Nat) (hv : v < (bisectVariants t).toNat) (hw : w < (bisectVariants t).toNat) :
    (∃ p, p < (bisectNum t).toNat ∧ (diagonal t w).1 ∈ part t v p ∧ (diagonal t w).2 ∈ part t v p) ↔ v = w := by
  rw [← diagonal_table t ht v (List.mem_range.2 hv) w (List.mem_range.2 hw)]
  simp [List.mem_range]

/-- **C103.** A part is an element of order one with the right number of nodes, and it sees each of them where the cell sees it. -/
theorem cut_seen (per : Bool) (P : Periodicity) (X : Int → V3) (C : Cell) (v p : Nat) (ho : order C.type = 2)
    (hv : v < (bisectVariants C.type).toNat) (hp : p < (bisectNum C.type).toNat) :
    order (child per v C p).type = 1 ∧ dim (child per v C p).type = dim C.type ∧ ((child per v C p).nodes.length : Int) = numNodes (child per v C p).type ∧
    ∀ a k, (part C.type v p)[a]? = some k → seen per P X (child per v C p) a = seen per P X C k := by
  have h := (bisection_measure C.type ho v (List.mem_range.2 hv)).1 p (List.mem_range.2 hp)
  refine ⟨h.2.2.2.1, h.2.2.2.2.1, by
    show ((nodesAt C.nodes (part C.type v p)).length : Int) = numNodes (bisectElem C.type p)
    rw [nodesAt_length]; exact h.2.2.1, ?_⟩
  intro a k hk
  have e1 : (child per v C p).nodes[a]?.getD 0 = C.nodes[k]?.getD 0 := by simp [child, nodesAt, hk]
  unfold seen
  rw [e1]
  cases per with
  | false => rfl
  | true =>
    have e2 : (child true v C p).pbi[a]?.getD 0#8 = C.pbi[k]?.getD 0#8 := by simp [child, hk]
    rw [e2]

/-- what the ranks have before and after -/
structure Cut (per : Bool) (P : Periodicity) (X : Int → V3) (nl cl : List Nat) (xs : List Rank) (outs : List Out) : Prop where
  ok : ∀ x ∈ xs, RankOk per X nl cl x ∧ ∀ c ∈ x.cells, 2 ≤ dim c.2.type
  len : outs.length = xs.length
  run : ∀ (r : Nat) (x : Rank) (o : Out), xs[r]? = some x → outs[r]? = some o → bisect per P x = .ok o

/-- **C103.** If no face was open between the cells before, none is open between the parts: every face of every part is met by a face of another
part, which may be on another rank, with the same nodes in the opposite sense, or is one of the new boundary elements; and every new boundary
element is a face of a part. -/
theorem cut_closed (per : Bool) (P : Periodicity) (X : Int → V3) (nl cl : List Nat) (xs : List Rank) (outs : List Out)
    (h : Cut per P X nl cl xs outs) (hc : Closed (inCells xs) (inBnds xs)) : Closed (allCells outs) (allBnds outs) := by
  -- the tables chosen on all ranks
  have hex : ∀ x ∈ xs, ∃ V, Chosen per P X x.cells V ∧ bisect per P x =
      .ok ⟨childCells per x.cells V, childBnds (x.bnds.map (fun b => (b.1, b.2.1))), x.coords.take x.nodeMap.mainSize⟩ :=
    fun x hx => bisect_rank (h.ok x hx).1
  choose! W hW using hex
  have houts : outs = xs.map (fun x => ⟨childCells per x.cells (W x), childBnds (x.bnds.map (fun b => (b.1, b.2.1))), x.coords.take x.nodeMap.mainSize⟩) := by
    refine List.ext_getElem (by simp [h.len]) ?_
    intro r h1 h2
    have hr : r < xs.length := by rw [← h.len]; exact h1
    have e := h.run r _ _ (List.getElem?_eq_getElem hr) (List.getElem?_eq_getElem h1)
    rw [(hW _ (List.getElem_mem hr)).2] at e
    rw [List.getElem_map]
    exact (Res.ok.inj e).symm
  have hlen : ∀ x ∈ xs, (W x).length = x.cells.length := fun x hx => (hW x hx).1.1
  -- the cells of all ranks with their tables
  have hzip : ∀ ys : List Rank, (∀ x ∈ ys, (W x).length = x.cells.length) →
      (inCells ys).length = (ys.map W).flatten.length ∧ (inCells ys).zip (ys.map W).flatten =
        (ys.map (fun x => (x.cells.map (·.2)).zip (W x))).flatten := by
    intro ys
    induction ys with
    | nil => intro _; simp [inCells]
    | cons y ys ih =>
      intro hy
      obtain ⟨i1, i2⟩ := ih (fun x hx => hy x (List.mem_cons_of_mem _ hx))
      have hy0 := hy y List.mem_cons_self
      simp only [inCells, List.map_cons, List.flatten_cons] at i1 i2 ⊢
      refine ⟨by rw [List.length_append, List.length_append, i1, List.length_map, hy0], ?_⟩
      rw [List.zip_append (by rw [List.length_map, hy0]), i2]
  obtain ⟨z1, z2⟩ := hzip xs hlen
  have key := closed_children per hc z1.symm (V := (xs.map W).flatten) (by
    intro i C v hC hv
    have hi : ((inCells xs).zip (xs.map W).flatten)[i]? = some (C, v) := List.getElem?_zip_eq_some.2 ⟨hC, hv⟩
    rw [z2] at hi
    obtain ⟨r, p, l, h1, h2, _⟩ := flat_find _ hi
    rw [List.getElem?_map] at h1
    obtain ⟨x, hx, rfl⟩ := Option.map_eq_some_iff.1 h1
    obtain ⟨h3, h4⟩ := List.getElem?_zip_eq_some.1 h2
    rw [List.getElem?_map] at h3
    obtain ⟨c, hc', rfl⟩ := Option.map_eq_some_iff.1 h3
    have hm := List.mem_of_getElem? hx
    have hcm := List.mem_of_getElem? hc'
    exact ⟨((h.ok x hm).1.order c hcm).1, (h.ok x hm).2 c hcm, ((hW x hm).1.2 p c v hc' h4).1⟩)
  have ec : allCells outs = (((inCells xs).zip (xs.map W).flatten).map (kids per)).flatten := by
    rw [z2, houts, allCells, List.map_map, List.map_flatten, List.map_map, List.flatten_flatten, List.map_map]
    congr 1
    refine List.map_congr_left ?_
    intro x _
    simp only [Function.comp, childCells, List.flatMap_def, List.map_flatten, List.map_map, List.zip_map_left]
    congr 1
    refine List.map_congr_left ?_
    intro c _
    simp only [Function.comp, kids, List.map_map, Prod.map]
    rfl
  have eb : allBnds outs = ((inBnds xs).map kidsB).flatten := by
    rw [houts, allBnds, inBnds, List.map_map, List.map_flatten, List.map_map, List.flatten_flatten, List.map_map]
    congr 1
    refine List.map_congr_left ?_
    intro x _
    simp only [Function.comp, childBnds, List.flatMap_def, List.map_flatten, List.map_map]
    congr 1
    refine List.map_congr_left ?_
    intro c _
    simp only [Function.comp, kidsB, List.map_map]
    rfl
  rw [ec, eb]
  exact key

/-- **C103.** A mesh of order one without open faces, of cells of two or three dimensions, is without open faces after it is elevated (C87); so the
mesh that is cut from it has none either. -/
theorem elevated_closed (per : Bool) (P : Periodicity) (X : Int → V3) (ps : List Piece) (outs : List RankO2) (ν : Int → Int) (N : Nat → Nat → Int)
    (hE : Elevatable per P ps X) (h : Elevated per P ps X outs ν N) (hd : ∀ C ∈ whole ps, 2 ≤ dim C.type) (hc : ClosedO1 ps) :
    Closed (whole (pieces outs)) (elevBnds outs) ∧ ∀ C ∈ whole (pieces outs), order C.type = 2 ∧ 2 ≤ dim C.type := by
  have hlen : (whole (pieces outs)).length = (whole ps).length := by
    have e1 : ∀ qs : List Piece, (whole qs).length = (cellLens qs).sum := by
      intro qs; simp [whole, cellLens, List.length_flatten, Function.comp_def]
    rw [e1, e1, h.lens]
  have hcell : ∀ (i : Nat) (E : Cell), (whole (pieces outs))[i]? = some E → ∃ C, (whole ps)[i]? = some C ∧ E = elevCell per ν N i C := by
    intro i E hi
    have hil : i < (whole ps).length := by rw [← hlen]; exact (List.getElem?_eq_some_iff.1 hi).1
    refine ⟨_, List.getElem?_eq_getElem hil, ?_⟩
    have := h.cell i _ (List.getElem?_eq_getElem hil)
    rw [hi] at this
    exact Option.some.inj this
  -- a boundary element after the elevation
  have hbnd : ∀ (r : Nat) (p : Piece) (n : Nat) (b : Bnd), ps[r]? = some p → p.bnds[n]? = some b →
      ∃ (i : Nat) (C : Cell) (f : Nat) (b' : ElemType × List Int), (whole ps)[i]? = some C ∧ f < (numFaces C.type).toNat ∧ (faceNodes C f).Perm b.nodes ∧
        (∃ o, outs[r]? = some o ∧ o.bnds[n]?.map (fun b => (b.1, b.2.nodes)) = some b') ∧ b' ∈ elevBnds outs ∧
        IsFace b' (elevCell per ν N i C) f := by
    intro r p n b hp hb
    have hr : r < outs.length := by rw [h.ranks]; exact (List.getElem?_eq_some_iff.1 hp).1
    obtain ⟨x, C, f, _, ⟨hx0, hx⟩, hf, hperm, ho⟩ := h.bnd r p _ n b hp (List.getElem?_eq_getElem hr) hb
    have hm := List.mem_of_getElem? hx
    have ft := elev_face C.type (hE.order C hm) (hd C hm) f (List.mem_range.2 hf)
    have e : corners (slot per C f) = faceNodes C f := by
      show ((fnodes C.type f).map _).take _ = _
      rw [List.take_of_length_le]
      · rfl
      · rw [List.length_map, ft.2.2.1]
        show _ ≤ (numVertices (faceType C.type f)).toNat
        rw [ft.2.2.2.2.1]
    rw [e] at hperm
    refine ⟨x.1.toNat, C, f, _, hx, hf, hperm, ⟨_, List.getElem?_eq_getElem hr, by rw [ho]; rfl⟩, ?_, isFace_self (hE.order C hm) (hd C hm) (hE.len hm) hf⟩
    refine List.mem_flatten.2 ⟨_, List.mem_map.2 ⟨_, List.getElem_mem hr, rfl⟩, ?_⟩
    exact List.mem_map.2 ⟨_, List.mem_of_getElem? ho, rfl⟩
  refine ⟨⟨?_, ?_⟩, ?_⟩
  · intro i E f hi hf
    obtain ⟨C, hC, rfl⟩ := hcell i E hi
    have hm := List.mem_of_getElem? hC
    have hb := elev_basic C.type (hE.order C hm) (hd C hm)
    have hf' : f < (numFaces C.type).toNat := by rw [← hb.2.2]; exact hf
    rcases hc i C f hC hf' with ⟨j, D, g, hD, hg, hne, hmeet⟩ | ⟨r, p, b, hp, hbm, honly⟩
    · have hmD := List.mem_of_getElem? hD
      refine Or.inl ⟨j, _, g, h.cell j D hD, ?_, hne, elevated_meet hE h hC hD (hd C hm) (hd D hmD) hf' hg hmeet⟩
      show g < (numFaces (elevatedType D.type)).toNat
      rw [(elev_basic D.type (hE.order D hmD) (hd D hmD)).2.2]; exact hg
    · obtain ⟨n, hn⟩ := List.mem_iff_getElem?.1 hbm
      obtain ⟨j, D, g, b', hD, hg, hperm, _, hb', hisf⟩ := hbnd r p n b hp hn
      obtain ⟨rfl, rfl⟩ := honly j D g hD hg hperm
      rw [hC] at hD; cases hD
      exact Or.inr ⟨b', hb', hisf⟩
  · intro b hb
    obtain ⟨l, hl, hbl⟩ := List.mem_flatten.1 hb
    obtain ⟨o, ho, rfl⟩ := List.mem_map.1 hl
    obtain ⟨b₂, hb₂, rfl⟩ := List.mem_map.1 hbl
    obtain ⟨r, hr⟩ := List.mem_iff_getElem?.1 ho
    obtain ⟨n, hn⟩ := List.mem_iff_getElem?.1 hb₂
    have hrp : r < ps.length := by rw [← h.ranks]; exact (List.getElem?_eq_some_iff.1 hr).1
    have hnl : n < ps[r].bnds.length := by
      rw [← h.bndLen r _ o (List.getElem?_eq_getElem hrp) hr]; exact (List.getElem?_eq_some_iff.1 hn).1
    obtain ⟨i, C, f, b', hC, hf, _, ⟨o', ho', e⟩, _, hisf⟩ := hbnd r _ n _ (List.getElem?_eq_getElem hrp) (List.getElem?_eq_getElem hnl)
    rw [hr] at ho'; cases ho'
    rw [hn] at e
    have hm := List.mem_of_getElem? hC
    refine ⟨i, _, f, h.cell i C hC, ?_, ?_⟩
    · show f < (numFaces (elevatedType C.type)).toNat
      rw [(elev_basic C.type (hE.order C hm) (hd C hm)).2.2]; exact hf
    · rw [Option.map_some] at e
      rw [Option.some.inj e]; exact hisf
  · intro E hEm
    obtain ⟨i, hi⟩ := List.mem_iff_getElem?.1 hEm
    obtain ⟨C, hC, rfl⟩ := hcell i E hi
    have hm := List.mem_of_getElem? hC
    have hb := elev_basic C.type (hE.order C hm) (hd C hm)
    exact ⟨hb.1, hb.2.1⟩

/-! ### two triangles of order two on two ranks -/

namespace Demo

def triA : Cell := ⟨.tri6, [0, 1, 2, 3, 4, 5], []⟩
def triB : Cell := ⟨.tri6, [2, 1, 6, 4, 7, 8], []⟩

noncomputable def rank0 (X : Int → V3) (m : Map) (g : GOM) : Rank :=
  ⟨0, [(7, triA)], [.tri6], [(.line3, ⟨10, [0, 1, 3]⟩, 0), (.line3, ⟨11, [2, 0, 5]⟩, 0)], [X 0, X 1, X 2, X 3, X 4, X 5], m, g⟩
noncomputable def rank1 (X : Int → V3) (m : Map) (g : GOM) : Rank :=
  ⟨1, [(8, triB)], [.tri6], [(.line3, ⟨10, [1, 6, 7]⟩, 1), (.line3, ⟨11, [6, 2, 8]⟩, 1)], [X 6, X 7, X 8, X 1, X 2, X 4], m, g⟩

theorem maps_exist : ∃ g m0 m1, Built [1, 1] g ∧ Collective [6, 3] 0 m0 ∧ Collective [6, 3] 1 m1 ∧ m0.ghostIndex = [] ∧ m1.ghostIndex = [1, 2, 4] := by
  obtain ⟨g, hg⟩ := built_exists [1, 1]
  obtain ⟨gn, hgn⟩ := built_exists [6, 3]
  obtain ⟨maps, h1, h2, h3⟩ := TwoQuads.pulls hgn [[], [1, 2, 4]] rfl (by decide) (by decide) (by decide)
  have e0 := h3 0 _ (List.getElem?_eq_getElem (by rw [h2]; decide))
  have e1 := h3 1 _ (List.getElem?_eq_getElem (by rw [h2]; decide))
  exact ⟨g, _, _, hg, e0.1, e1.1, (Option.some.inj e0.2.2).symm, (Option.some.inj e1.2.2).symm⟩

theorem owns0 (q : Int) : Owns [6, 3] 0 q ↔ 0 ≤ q ∧ q < 6 := by
  constructor
  · rintro ⟨_, h1, h2⟩; simp [before] at h1 h2; omega
  · rintro ⟨h1, h2⟩; exact ⟨by decide, by simp [before]; omega, by simp [before]; omega⟩

theorem owns1 (q : Int) : Owns [6, 3] 1 q ↔ 6 ≤ q ∧ q < 9 := by
  constructor
  · rintro ⟨_, h1, h2⟩; simp [before] at h1 h2; omega
  · rintro ⟨h1, h2⟩; exact ⟨by decide, by simp [before]; omega, by simp [before]; omega⟩

theorem ok0 (X : Int → V3) {m : Map} {g : GOM} (hg : Built [1, 1] g) (hm : Collective [6, 3] 0 m) (hi : m.ghostIndex = []) :
    RankOk false X [6, 3] [1, 1] (rank0 X m g) where
  order := by intro c hc; simp only [rank0, List.mem_singleton] at hc; subst hc; exact ⟨rfl, rfl, nofun⟩
  ghosts := by intro t ht; simp only [rank0, List.mem_singleton] at ht; subst ht; rfl
  map := hm
  glob := hg
  size := rfl
  nodes := by
    intro c hc q hq
    simp only [rank0, List.mem_singleton] at hc
    subst hc
    have : ∀ q ∈ triA.nodes, 0 ≤ q ∧ q < 6 := by decide
    exact ⟨(this q hq).1, Or.inl ((owns0 q).2 (this q hq))⟩
  coords := by
    intro q v hq hv hn
    rcases hn with ⟨h1, h2⟩ | ⟨_, k, h2, _⟩ | ⟨_, _, h3⟩
    · obtain ⟨a, b⟩ := (owns0 q).1 h1
      have e : v = q := by simpa [before, rank0] using h2
      subst e
      have : v = 0 ∨ v = 1 ∨ v = 2 ∨ v = 3 ∨ v = 4 ∨ v = 5 := by omega
      rcases this with rfl | rfl | rfl | rfl | rfl | rfl <;> rfl
    · rw [show (rank0 X m g).nodeMap.ghostIndex = [] from hi] at h2; simp at h2
    · omega
  bnds := by
    intro b hb
    simp only [rank0, List.mem_cons, List.not_mem_nil, or_false] at hb
    have hin : ∀ q ∈ ([0, 1, 3, 2, 0, 5] : List Int), q ∈ triA.nodes := by decide
    rcases hb with rfl | rfl
    · refine ⟨rfl, by decide, rfl, (show Owns [1, 1] 0 0 from ⟨by decide, by decide, by decide⟩), ?_⟩
      intro c hc q hq
      cases hc
      exact hin q (by simp only [List.mem_cons, List.not_mem_nil, or_false] at hq ⊢; omega)
    · refine ⟨rfl, by decide, rfl, (show Owns [1, 1] 0 0 from ⟨by decide, by decide, by decide⟩), ?_⟩
      intro c hc q hq
      cases hc
      exact hin q (by simp only [List.mem_cons, List.not_mem_nil, or_false] at hq ⊢; omega)

theorem ok1 (X : Int → V3) {m : Map} {g : GOM} (hg : Built [1, 1] g) (hm : Collective [6, 3] 1 m) (hi : m.ghostIndex = [1, 2, 4]) :
    RankOk false X [6, 3] [1, 1] (rank1 X m g) where
  order := by intro c hc; simp only [rank1, List.mem_singleton] at hc; subst hc; exact ⟨rfl, rfl, nofun⟩
  ghosts := by intro t ht; simp only [rank1, List.mem_singleton] at ht; subst ht; rfl
  map := hm
  glob := hg
  size := rfl
  nodes := by
    intro c hc q hq
    simp only [rank1, List.mem_singleton] at hc
    subst hc
    have : ∀ q ∈ triB.nodes, 0 ≤ q ∧ ((6 ≤ q ∧ q < 9) ∨ q ∈ ([1, 2, 4] : List Int)) := by decide
    obtain ⟨h1, h2⟩ := this q hq
    refine ⟨h1, h2.imp (owns1 q).2 ?_⟩
    intro h
    show q ∈ m.ghostIndex
    rw [hi]; exact h
  coords := by
    intro q v hq hv hn
    rcases hn with ⟨h1, h2⟩ | ⟨_, k, h2, n, h3, h4⟩ | ⟨_, _, h3⟩
    · obtain ⟨a, b⟩ := (owns1 q).1 h1
      have e : v = q - 6 := by simpa [before, rank1] using h2
      have : q = 6 ∨ q = 7 ∨ q = 8 := by omega
      rcases this with rfl | rfl | rfl <;> subst e <;> rfl
    · rw [show (rank1 X m g).nodeMap.ghostIndex = [1, 2, 4] from hi] at h2
      have hk : k < 3 := (List.getElem?_eq_some_iff.1 h2).1
      have h3' : n = 3 := by
        have : ([6, 3] : List Nat)[(rank1 X m g).rank]? = some 3 := rfl
        rw [this] at h3; exact (Option.some.inj h3).symm
      have : k = 0 ∨ k = 1 ∨ k = 2 := by omega
      rcases this with rfl | rfl | rfl <;> cases h2 <;> subst h3' <;> subst h4 <;> rfl
    · omega
  bnds := by
    intro b hb
    simp only [rank1, List.mem_cons, List.not_mem_nil, or_false] at hb
    have hin : ∀ q ∈ ([1, 6, 7, 6, 2, 8] : List Int), q ∈ triB.nodes := by decide
    rcases hb with rfl | rfl
    · refine ⟨rfl, by decide, rfl, (show Owns [1, 1] 1 1 from ⟨by decide, by decide, by decide⟩), ?_⟩
      intro c hc q hq
      cases hc
      exact hin q (by simp only [List.mem_cons, List.not_mem_nil, or_false] at hq ⊢; omega)
    · refine ⟨rfl, by decide, rfl, (show Owns [1, 1] 1 1 from ⟨by decide, by decide, by decide⟩), ?_⟩
      intro c hc q hq
      cases hc
      exact hin q (by simp only [List.mem_cons, List.not_mem_nil, or_false] at hq ⊢; omega)

instance (C : Cell) (f : Nat) (D : Cell) (g : Nat) : Decidable (Meet C f D g) := by unfold Meet; infer_instance
instance (b : ElemType × List Int) (C : Cell) (f : Nat) : Decidable (IsFace b C f) := by unfold IsFace; infer_instance

theorem closed : Closed [triA, triB] [(.line3, [0, 1, 3]), (.line3, [2, 0, 5]), (.line3, [1, 6, 7]), (.line3, [6, 2, 8])] where
  faces := by
    intro i C f hi hf
    have hil : i < 2 := (List.getElem?_eq_some_iff.1 hi).1
    have : i = 0 ∨ i = 1 := by omega
    rcases this with rfl | rfl
    · cases hi
      have hf : f < 3 := hf
      have : f = 0 ∨ f = 1 ∨ f = 2 := by omega
      rcases this with rfl | rfl | rfl
      · exact Or.inr ⟨(.line3, [0, 1, 3]), by decide, by decide +kernel⟩
      · exact Or.inl ⟨1, triB, 0, rfl, by decide, by decide, by decide +kernel⟩
      · exact Or.inr ⟨(.line3, [2, 0, 5]), by decide, by decide +kernel⟩
    · cases hi
      have hf : f < 3 := hf
      have : f = 0 ∨ f = 1 ∨ f = 2 := by omega
      rcases this with rfl | rfl | rfl
      · exact Or.inl ⟨0, triA, 1, rfl, by decide, by decide, by decide +kernel⟩
      · exact Or.inr ⟨(.line3, [1, 6, 7]), by decide, by decide +kernel⟩
      · exact Or.inr ⟨(.line3, [6, 2, 8]), by decide, by decide +kernel⟩
  bnds := by
    intro b hb
    simp only [List.mem_cons, List.not_mem_nil, or_false] at hb
    rcases hb with rfl | rfl | rfl | rfl
    · exact ⟨0, triA, 0, rfl, by decide, by decide +kernel⟩
    · exact ⟨0, triA, 2, rfl, by decide, by decide +kernel⟩
    · exact ⟨1, triB, 1, rfl, by decide, by decide +kernel⟩
    · exact ⟨1, triB, 2, rfl, by decide, by decide +kernel⟩

/-- the two ranks are cut, and the eight triangles leave no face open -/
example (P : Periodicity) (X : Int → V3) : ∃ m0 m1 g outs, Cut false P X [6, 3] [1, 1] [rank0 X m0 g, rank1 X m1 g] outs ∧
    Closed (inCells [rank0 X m0 g, rank1 X m1 g]) (inBnds [rank0 X m0 g, rank1 X m1 g]) ∧ (allCells outs).length = 8 ∧
    (allBnds outs).length = 8 ∧ Closed (allCells outs) (allBnds outs) := by
  obtain ⟨g, m0, m1, hg, h0, h1, e0, e1⟩ := maps_exist
  have k0 := ok0 X hg h0 e0
  have k1 := ok1 X hg h1 e1
  obtain ⟨V0, c0, r0⟩ := cut_rank false P X _ _ _ k0
  obtain ⟨V1, c1, r1⟩ := cut_rank false P X _ _ _ k1
  have hcut : Cut false P X [6, 3] [1, 1] [rank0 X m0 g, rank1 X m1 g] [⟨_, _, _⟩, ⟨_, _, _⟩] := {
    ok := by
      intro x hx
      simp only [List.mem_cons, List.not_mem_nil, or_false] at hx
      rcases hx with rfl | rfl
      · exact ⟨k0, by intro c hc; simp only [rank0, List.mem_singleton] at hc; subst hc; decide⟩
      · exact ⟨k1, by intro c hc; simp only [rank1, List.mem_singleton] at hc; subst hc; decide⟩
    len := rfl
    run := by
      intro r x o hx ho
      have hr : r < 2 := (List.getElem?_eq_some_iff.1 hx).1
      have : r = 0 ∨ r = 1 := by omega
      rcases this with rfl | rfl
      · cases hx; cases ho; exact r0
      · cases hx; cases ho; exact r1 }
  refine ⟨m0, m1, g, _, hcut, closed, ?_, ?_, cut_closed false P X _ _ _ _ hcut closed⟩
  · obtain ⟨l0, _⟩ := c0
    obtain ⟨l1, _⟩ := c1
    match V0, l0, V1, l1 with
    | [a], _, [b], _ => rfl
  · rfl

end Demo

end DNDSR.Bisect
