import Verif.Props.Elevation
import Verif.Props.Reorder
import Mathlib.Tactic.IntervalCases
import Mathlib.Tactic.FinCases
import Mathlib.Tactic.NormNum

/-!
# A periodic mesh on two ranks that is elevated (C87)

The ring of three quadrilaterals of C75; its nodes are at `(0, 0)`, `(1, 0)`, `(2, 0)` and above them, and the third cell reaches the first
two across the periodic boundary, three units away.
-/

namespace DNDSR.Elev

open DNDSR.IMap DNDSR.MeshAdj DNDSR.Ghost
open DNDSR.Faces hiding rename St search
open DNDSR.Reorder hiding rename
open DNDSR.Elem hiding V3
open DNDSR.Bits (Mark)
open DNDSR.Per (V3 Periodicity)

/-- every valid mesh, with any positions, is what some ranks have -/
theorem ranks_have (per : Bool) (ps : List Piece) (X : Int → V3) (hM : MeshOk per ps) (hs : Small (nodeLens ps)) (hs' : Small (cellLens ps))
    (hb : N2C.entries (ps.map (fun p => p.cells.map (·.nodes))) < Arr.int32Max) : ∃ xs, RanksHave per ps X xs := by
  have hP := hM.parts
  obtain ⟨arrs, n2c, e1, e2, hN⟩ := node2cell_rows N2C.demoHash N2C.demoHash_fair false ps
    ((List.range ps.length).flatMap fun s => (List.range ps.length).map fun d => (s, d)) (by
      rintro ⟨s, d⟩
      simp only [List.mem_flatMap, List.mem_map, List.mem_range, Prod.mk.injEq]
      constructor
      · rintro ⟨s', h1, d', h2, rfl, rfl⟩; exact ⟨h1, h2⟩
      · rintro ⟨h1, h2⟩; exact ⟨s, h1, d, h2, rfl, rfl⟩) per hP hb
  obtain ⟨adj, e3⟩ := (recover_returns_iff per N2C.demoHash N2C.demoHash_fair ps n2c hP hN hs hs').2 (by
    intro p hp b hb
    obtain ⟨r, hr⟩ := List.mem_iff_getElem?.1 hp
    obtain ⟨x, hx, _⟩ := hM.home r p b hr hb
    exact ⟨x, hx⟩)
  obtain ⟨l3, s3⟩ := recover_ok N2C.demoHash_fair hP hN e3
  obtain ⟨held, prim, e4, e5, hR⟩ := ranks_of_built hM hs hs' l3 (fun r p a hp ha => s3 r p a hp ha)
  obtain ⟨xs, x1, x2⟩ := list_of (P := fun r (x : RankO1) => ∀ p s, ps[r]? = some p → ((held.zip prim).map (fun x => stOf x.1 x.2))[r]? = some s →
      x.st = s ∧ x.coords = (List.range s.nodeMap.mainSize).map (fun v : Nat => X ((before (nodeLens ps) r : Int) + v)) ++ s.nodeMap.ghostIndex.map X ∧
      x.zones = p.bnds.map (·.zone)) ps.length (by
    intro r hr
    obtain ⟨p, hp⟩ := at_some hr
    obtain ⟨s, hs0⟩ := at_some (l := (held.zip prim).map (fun x => stOf x.1 x.2)) (r := r) (by rw [hR.len]; exact hr)
    refine ⟨⟨s, (List.range s.nodeMap.mainSize).map (fun v : Nat => X ((before (nodeLens ps) r : Int) + v)) ++ s.nodeMap.ghostIndex.map X,
      p.bnds.map (·.zone)⟩, ?_⟩
    intro p' s' hp' hs'
    rw [hp] at hp'; rw [hs0] at hs'
    cases hp'; cases hs'
    exact ⟨rfl, rfl, rfl⟩)
  have hst : xs.map (·.st) = (held.zip prim).map (fun x => stOf x.1 x.2) := by
    refine List.ext_getElem? fun r => ?_
    rw [List.getElem?_map]
    by_cases hr : r < ps.length
    · obtain ⟨p, hp⟩ := at_some hr
      obtain ⟨s, hs0⟩ := at_some (l := (held.zip prim).map (fun x => stOf x.1 x.2)) (r := r) (by rw [hR.len]; exact hr)
      obtain ⟨x, hx⟩ := at_some (l := xs) (r := r) (by omega)
      rw [hx, hs0, Option.map_some, (x2 r x hx p s hp hs0).1]
    · rw [List.getElem?_eq_none (by omega), List.getElem?_eq_none (by rw [hR.len]; omega)]; rfl
  have hrank : ∀ (r : Nat) (x : RankO1), xs[r]? = some x → ∃ p, ps[r]? = some p ∧
      x.coords = (List.range x.st.nodeMap.mainSize).map (fun v : Nat => X ((before (nodeLens ps) r : Int) + v)) ++ x.st.nodeMap.ghostIndex.map X ∧
      x.zones = p.bnds.map (·.zone) ∧ (nodeLens ps)[r]? = some x.st.nodeMap.mainSize := by
    intro r x hx
    obtain ⟨p, hp⟩ := at_some (l := ps) (r := r) (by rw [← x1]; exact some_lt hx)
    have hs0 : ((held.zip prim).map (fun x => stOf x.1 x.2))[r]? = some x.st := by rw [← hst, List.getElem?_map, hx]; rfl
    obtain ⟨_, h2, h3⟩ := x2 r x hx p x.st hp hs0
    obtain ⟨a, y, H⟩ := has_of hM hs hs' hp (hR.rank r p x.st hp hs0)
    exact ⟨p, hp, h2, h3, by rw [H.nmap]; exact H.held.nodeMap.faithful.size⟩
  refine ⟨xs, by rw [hst]; exact hR, ?_, ?_, ?_⟩
  · intro x hx
    obtain ⟨r, hr⟩ := List.mem_iff_getElem?.1 hx
    obtain ⟨p, _, h2, _⟩ := hrank r x hr
    rw [h2]; simp
  · intro r x q v hx hq hv hn
    obtain ⟨p, hp, h2, _, h4⟩ := hrank r x hx
    rw [h2]
    rcases hn with ⟨ho, rfl⟩ | ⟨_, k, hk, n, hn, rfl⟩ | ⟨_, _, rfl⟩
    · have hlt : (q - before (nodeLens ps) r).toNat < x.st.nodeMap.mainSize := by
        obtain ⟨n1, n2⟩ := List.getElem?_eq_some_iff.1 h4
        have := ho.2.2
        rw [n2] at this
        omega
      rw [List.getElem?_append_left (by simpa using hlt), List.getElem?_map, List.getElem?_range hlt, Option.map_some]
      congr 2
      omega
    · rw [hn] at h4; cases h4
      rw [List.getElem?_append_right (by simp; omega), List.length_map, List.length_range, List.getElem?_map,
        show ((x.st.nodeMap.mainSize : Int) + k).toNat - x.st.nodeMap.mainSize = k by omega, hk]
      rfl
    · omega
  · intro r p x hp hx
    obtain ⟨p', hp', _, h3, _⟩ := hrank r x hx
    rw [hp] at hp'; cases hp'
    exact h3

namespace Ring

/-- nodes 0, 1, 2 below, 3, 4, 5 above -/
noncomputable def X (q : Int) : V3 := if q < 3 then ![q, 0, 0] else ![q - 3, 1, 0]

/-- the periodic boundary: three units along the first axis -/
noncomputable def P : Periodicity where
  rotation := fun _ => 1
  translation := fun d => if d = 1 then ![3, 0, 0] else 0
  rotationCenter := fun _ => 0

theorem rigid (d : Fin 4) : Per.Rigid (P.rotation d) := by simp [P, Per.Rigid]

theorem shift1 (x : V3) : shift P 1 x = x + ![3, 0, 0] := by simp [shift, P]
theorem unshift1 (x : V3) : unshift P 1 x = x - ![3, 0, 0] := by simp [unshift, P]

theorem forward0 (x : V3) : forward P 0#8 x = x := by simp [forward, stepIf]
theorem forward1 (x : V3) : forward P 1#8 x = x + ![3, 0, 0] := by simp [forward, stepIf, shift1]
theorem backward0 (x : V3) : backward P 0#8 x = x := by simp [backward, stepIf]
theorem backward1 (x : V3) : backward P 1#8 x = x - ![3, 0, 0] := by simp [backward, stepIf, unshift1]

/-- where the new nodes are, in halves -/
def tab : List (List (Int × Int)) :=
  [[(1, 0), (2, 1), (1, 2), (0, 1), (1, 1)], [(3, 0), (4, 1), (3, 2), (2, 1), (3, 1)], [(5, 0), (0, 1), (5, 2), (4, 1), (5, 1)]]

def at_ (i k : Nat) : Int × Int := (tab[i]?.getD [])[k]?.getD (0, 0)

noncomputable def pt (z : Int × Int) : V3 := ![z.1 / 2, z.2 / 2, 0]

theorem cells {i k : Nat} {C : Cell} (h : IsNew Ghost.Ring.parts i k C) : i < 3 ∧ k < 5 ∧ C = (whole Ghost.Ring.parts)[i]?.getD ⟨.unknown, [], []⟩ := by
  obtain ⟨h1, h2⟩ := h
  have hi : i < 3 := (List.getElem?_eq_some_iff.1 h1).1
  refine ⟨hi, ?_, by rw [h1]; rfl⟩
  have ht : C.type = .quad4 := by
    match i, hi with
    | 0, _ => cases h1; rfl
    | 1, _ => cases h1; rfl
    | 2, _ => cases h1; rfl
  rw [ht] at h2
  exact h2

theorem point {i k : Nat} {C : Cell} (h : IsNew Ghost.Ring.parts i k C) : nodePoint true P X C k = pt (at_ i k) := by
  obtain ⟨h1, h2, rfl⟩ := cells h
  have e : ∀ k, k < 5 → span .quad4 k = [[0, 1], [1, 2], [2, 3], [3, 0], [0, 1, 2, 3]][k]?.getD [] := by decide +kernel
  interval_cases i <;> interval_cases k <;>
  · simp only [whole, Ghost.Ring.parts, List.map_cons, List.map_nil, List.flatten_cons, List.flatten_nil, List.append_nil, List.cons_append, List.nil_append,
      List.getElem?_cons_zero, List.getElem?_cons_succ, Option.getD_some, nodePoint, middle, spanBits, commonBits, seen, if_true]
    rw [e _ (by norm_num)]
    ext c
    fin_cases c <;> norm_num [seen, show (7#8 &&& 1#8 &&& 1#8 : Mark) = 1#8 from rfl, forward0, forward1, backward0, backward1, X, pt, at_, tab]

/-- the decidable part -/
def news : List (Nat × Nat × List Int) :=
  (List.range 3).flatMap fun i => (List.range 5).map fun k => (i, k, spanOf ((whole Ghost.Ring.parts)[i]?.getD ⟨.unknown, [], []⟩) k)

theorem mem_news {i k : Nat} {C : Cell} (h : IsNew Ghost.Ring.parts i k C) : (i, k, spanOf C k) ∈ news := by
  obtain ⟨h1, h2, rfl⟩ := cells h
  simp only [news, List.mem_flatMap, List.mem_map, List.mem_range]
  exact ⟨i, h1, k, h2, rfl⟩

theorem dist_pt (a b : Int × Int) : Per.dist2 (pt a) (pt b) = (((a.1 - b.1) ^ 2 + (a.2 - b.2) ^ 2 : Int) : ℝ) / 4 := by
  simp only [Per.dist2, pt, dotProduct, Fin.sum_univ_three]
  simp
  ring

theorem elevatable : Elevatable true P Ghost.Ring.parts X := by
  refine ⟨Ghost.Ring.mesh_ok, by decide +kernel, ?_, ?_, ?_, ?_⟩
  · have h : ∀ z ∈ news, ∀ j < 3, (∀ q ∈ z.2.2, q ∈ ((whole Ghost.Ring.parts)[j]?.getD ⟨.unknown, [], []⟩).nodes) → ∃ k' < 5,
        (spanOf ((whole Ghost.Ring.parts)[j]?.getD ⟨.unknown, [], []⟩) k').Perm z.2.2 := by decide +kernel
    intro i k j C E hi hE hq
    have hj : j < 3 := (List.getElem?_eq_some_iff.1 hE).1
    have e : (whole Ghost.Ring.parts)[j]?.getD ⟨.unknown, [], []⟩ = E := by rw [hE]; rfl
    obtain ⟨k', h1, h2⟩ := h _ (mem_news hi) j hj (by rw [e]; exact hq)
    rw [e] at h2
    refine ⟨k', ⟨hE, ?_⟩, h2⟩
    have ht : E.type = .quad4 := by
      match j, hj with
      | 0, _ => cases hE; rfl
      | 1, _ => cases hE; rfl
      | 2, _ => cases hE; rfl
    rw [ht]; exact h1
  · have h : ∀ z ∈ news, ∀ w ∈ news, w.2.2.Perm z.2.2 → at_ w.1 w.2.1 = at_ z.1 z.2.1 := by decide +kernel
    intro _ i k j k' C E hi hj hp
    rw [point hi, point hj, h _ (mem_news hi) _ (mem_news hj) hp]
  · have h : ∀ i < 3, ∀ k < 5, ∀ k' < 5, k ≠ k' → 1 ≤ ((at_ i k).1 - (at_ i k').1) ^ 2 + ((at_ i k).2 - (at_ i k').2) ^ 2 := by decide +kernel
    intro i k k' C hi hi' hne
    obtain ⟨h1, h2, _⟩ := cells hi
    rw [point hi, point hi', dist_pt]
    have : ((1 : Int) : ℝ) ≤ (((at_ i k).1 - (at_ i k').1) ^ 2 + ((at_ i k).2 - (at_ i k').2) ^ 2 : Int) :=
      Int.cast_le.2 (h i h1 k h2 k' (cells hi').2.1 hne)
    have e : (10 : ℝ)⁻¹ ^ 20 ≤ 1 / 4 := by norm_num
    push_cast at this ⊢
    linarith
  · intro r p b x hp hb hx
    have hr : r < 2 := (List.getElem?_eq_some_iff.1 hp).1
    have hu : ∀ {y}, BndOk true Ghost.Ring.parts b y → x = y := fun hy => bndOk_unique hx hy
    match r, hr with
    | 0, _ =>
      cases hp
      simp only [List.mem_cons, List.not_mem_nil, or_false] at hb
      rcases hb with rfl | rfl
      · rw [hu Ghost.Ring.wall0]
        exact ⟨by decide +kernel, _, 0, ⟨by decide, rfl⟩, by decide +kernel, by decide +kernel⟩
      · rw [hu Ghost.Ring.main]
        exact ⟨by decide +kernel, _, 3, ⟨by decide, rfl⟩, by decide +kernel, by decide +kernel⟩
    | 1, _ =>
      cases hp
      simp only [List.mem_cons, List.not_mem_nil, or_false] at hb
      rcases hb with rfl | rfl
      · rw [hu Ghost.Ring.wall1]
        exact ⟨by decide +kernel, _, 2, ⟨by decide, rfl⟩, by decide +kernel, by decide +kernel⟩
      · rw [hu Ghost.Ring.donor]
        exact ⟨by decide +kernel, _, 1, ⟨by decide, rfl⟩, by decide +kernel, by decide +kernel⟩

/-- the ring is elevated: the edge the first and the third cell share across the periodic boundary gets one node, at `(0, 1/2)` -/
example : ∃ xs outs ν N, RanksHave true Ghost.Ring.parts X xs ∧ elevate true P xs = .ok outs ∧ Elevated true P Ghost.Ring.parts X outs ν N ∧
    N 0 3 = N 2 1 ∧ N 0 3 ≠ N 1 3 ∧ IsAt outs (N 0 3) (pt (0, 1)) := by
  obtain ⟨xs, hx⟩ := ranks_have true Ghost.Ring.parts X Ghost.Ring.mesh_ok Ghost.Ring.small.1 Ghost.Ring.small.2 (by decide +kernel)
  obtain ⟨outs, ν, N, h1, h2, _⟩ := elevation true P Ghost.Ring.parts X xs elevatable hx (by unfold Small; decide +kernel)
  have i0 : IsNew Ghost.Ring.parts 0 3 _ := ⟨rfl, by decide +kernel⟩
  have i1 : IsNew Ghost.Ring.parts 1 3 _ := ⟨rfl, by decide +kernel⟩
  have i2 : IsNew Ghost.Ring.parts 2 1 _ := ⟨rfl, by decide +kernel⟩
  refine ⟨xs, outs, ν, N, hx, h1, h2, (h2.iff _ _ _ _ _ _ i0 i2).2 (by decide +kernel), fun e => ?_, ?_⟩
  · exact absurd ((h2.iff _ _ _ _ _ _ i0 i1).1 e) (by decide +kernel)
  · have := h2.point 0 3 _ i0
    rw [point i0] at this
    exact this

end Ring

end DNDSR.Elev
