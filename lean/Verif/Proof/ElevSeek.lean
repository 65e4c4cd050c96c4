import Verif.Proof.ElevGlobal
import Verif.Proof.ElevMesh

/-!
# Looking for a new node by its position, and for the face of a boundary element
-/

namespace DNDSR.Elev

open DNDSR.IMap DNDSR.MeshAdj DNDSR.Ghost
open DNDSR.Faces hiding rename St search
open DNDSR.Reorder hiding rename
open DNDSR.Elem hiding V3
open DNDSR.Bits (Mark)
open DNDSR.Per (V3 Periodicity)

/-- the node is found and its position read -/
def Reads (m : Map) (coords : List V3) (q : Int) (z : V3) : Prop := ∃ o v, m.searchAppend q = .ok (some (o, v)) ∧ at64 coords v = .ok z

theorem seek_none {m : Map} {coords : List V3} {y : V3} : ∀ (qs : List Int) (n : Nat) (found : Int),
    (∀ q ∈ qs, 0 ≤ q → ∃ z, Reads m coords q z ∧ ¬ sqrDist z y < (10 : ℝ)⁻¹ ^ 20) → seek m coords y n found qs = .ok (n, found)
  | [], n, found, _ => rfl
  | q :: qs, n, found, h => by
      have ih := seek_none qs n found (fun q' hq' => h q' (List.mem_cons_of_mem _ hq'))
      rw [seek]
      by_cases hq : q < 0
      · rw [if_pos hq]; exact ih
      · obtain ⟨z, ⟨o, v, h1, h2⟩, h3⟩ := h q (List.mem_cons_self ..) (by omega)
        rw [if_neg hq, h1]
        simp only [Res.ok_bind, h2]
        rw [if_neg h3]
        exact ih

theorem seek_one {m : Map} {coords : List V3} {y : V3} : ∀ (qs : List Int) (k0 n : Nat) (found q0 : Int), qs[k0]? = some q0 → 0 ≤ q0 →
    (∀ (k : Nat) (q : Int), qs[k]? = some q → 0 ≤ q → ∃ z, Reads m coords q z ∧ (sqrDist z y < (10 : ℝ)⁻¹ ^ 20 ↔ k = k0)) →
    seek m coords y n found qs = .ok (n + 1, q0)
  | [], k0, n, found, q0, h, _, _ => by simp at h
  | q :: qs, 0, n, found, q0, h, h0, hr => by
      cases h
      obtain ⟨z, ⟨o, v, h1, h2⟩, h3⟩ := hr 0 q rfl h0
      rw [seek, if_neg (by omega), h1]
      simp only [Res.ok_bind, h2]
      rw [if_pos (h3.2 rfl)]
      refine seek_none qs (n + 1) q ?_
      intro q' hq' h'
      obtain ⟨k, hk⟩ := List.mem_iff_getElem?.1 hq'
      obtain ⟨z', r1, r2⟩ := hr (k + 1) q' (by simpa using hk) h'
      exact ⟨z', r1, fun hc => by have := r2.1 hc; omega⟩
  | q :: qs, k0 + 1, n, found, q0, h, h0, hr => by
      rw [List.getElem?_cons_succ] at h
      have ih := seek_one qs k0 n found q0 h h0 (by
        intro k q' hq' h'
        obtain ⟨z', r1, r2⟩ := hr (k + 1) q' (by simpa using hq') h'
        exact ⟨z', r1, r2.trans (by omega)⟩)
      rw [seek]
      by_cases hq : q < 0
      · rw [if_pos hq]; exact ih
      · obtain ⟨z, ⟨o, v, h1, h2⟩, h3⟩ := hr 0 q rfl (by omega)
        rw [if_neg hq, h1]
        simp only [Res.ok_bind, h2]
        rw [if_neg (fun hc => by have := h3.1 hc; omega)]
        exact ih

theorem seekFace_spec {c : Cell} {b : List Int} {j : Nat} {ns : Nat → List Int}
    (h : ∀ f, f < (numFaces c.type).toNat → extractFaceNodes c.type f c.nodes = .ok (ns f) ∧ (includes (sortIdx (ns f)) b = true ↔ f = j)) :
    ∀ (k f n : Nat) (found : ElemType × List Int), f + k = (numFaces c.type).toNat → j < (numFaces c.type).toNat →
      seekFace c b f n found k = .ok (if f ≤ j then (n + 1, faceType c.type j, ns j) else (n, found))
  | 0, f, n, found, e, hj => by rw [seekFace, if_neg (by omega)]
  | k + 1, f, n, found, e, hj => by
      obtain ⟨h1, h2⟩ := h f (by omega)
      rw [seekFace, h1, Res.ok_bind]
      by_cases hf : f = j
      · subst hf
        rw [if_pos (h2.2 rfl), seekFace_spec h k (f + 1) (n + 1) _ (by omega) hj, if_neg (by omega), if_pos (by omega)]
      · rw [if_neg (fun hc => hf (h2.1 hc)), seekFace_spec h k (f + 1) n found (by omega) hj]
        by_cases hl : f ≤ j
        · rw [if_pos (by omega), if_pos hl]
        · rw [if_neg (by omega), if_neg hl]

variable {per : Bool} {P : Periodicity} {ps : List Piece} {X : Int → V3} {D : List Rk}

theorem sqrDist_self (a : V3) : sqrDist a a < (10 : ℝ)⁻¹ ^ 20 := by
  unfold sqrDist
  have : (0 : ℝ) < (10 : ℝ)⁻¹ ^ 20 := by positivity
  simpa using this

/-- positions of new nodes of a cell are near each other only if they are the same -/
theorem near_iff (hE : Elevatable per P ps X) {i k k' : Nat} {C : Cell} (h : IsNew ps i k C) (h' : IsNew ps i k' C) :
    sqrDist (nodePoint per P X C k) (nodePoint per P X C k') < (10 : ℝ)⁻¹ ^ 20 ↔ k = k' := by
  constructor
  · intro hd
    by_contra hne
    have := hE.apart i k k' C h h' hne
    rw [dist2_eq] at hd
    exact absurd hd (not_lt.2 this)
  · rintro rfl; exact sqrDist_self _

/-! ### old nodes -/

theorem All.nodeLens (h : All per P ps X D) {r : Nat} {d : Rk} (hd : D[r]? = some d) : (nodeLens ps)[r]? = some d.p.nNodes := by
  rw [Ghost.nodeLens, List.getElem?_map, h.piece hd]; rfl

/-- the rank of an old node, and its new number -/
theorem old_spec (h : All per P ps X D) {q : Int} (hq : Global (nodeLens ps) q) : ∃ r d, D[r]? = some d ∧ Owns (nodeLens ps) r q ∧
    renum ps D q = before (lens2 D) r + (q - before (nodeLens ps) r) ∧ q - before (nodeLens ps) r < d.p.nNodes ∧ Owns (lens2 D) r (renum ps D q) ∧
    (D.map Rk.own).flatten[(renum ps D q).toNat]? = some (X q) := by
  obtain ⟨r, ho⟩ := owns_exists (lens := nodeLens ps) hq.1 hq.2
  have hr : r < ps.length := by simpa [nodeLens] using ho.1
  obtain ⟨d, hd, _⟩ := h.rank (List.getElem?_eq_getElem hr)
  have hok := h.ok r d hd
  have hn : q - before (nodeLens ps) r < d.p.nNodes := by
    have h3 := ho.2.2
    have := h.nodeLens hd
    rw [List.getElem?_eq_getElem ho.1] at this
    rw [Option.some.inj this] at h3
    omega
  have h0 := ho.2.1
  have e := renum_eq (D := D) ho
  have hlen := hok.ownLen
  have hm : (q - before (nodeLens ps) r).toNat < d.own.length := by omega
  refine ⟨r, d, hd, ho, e, hn, ?_, ?_⟩
  · have := owns2 hd hm
    rw [e]
    rwa [show (((q - before (nodeLens ps) r).toNat : Nat) : Int) = q - before (nodeLens ps) r by omega] at this
  · rw [e, show ((before (lens2 D) r : Int) + (q - before (nodeLens ps) r)).toNat = before (lens2 D) r + (q - before (nodeLens ps) r).toNat by omega,
      at2 hd hm, Rk.own, ownCoords, List.getElem?_append_left (by rw [List.length_take, hok.main]; have := hok.size; omega),
      List.getElem?_take_of_lt (by rw [hok.main]; omega)]
    exact hok.coords q _ hq.1 (by omega) (Or.inl ⟨ho, rfl⟩)

theorem oldNode_spec (h : All per P ps X D) {gnO1 gn : GOM} (hg1 : Built (nodeLens ps) gnO1) (hg : Built (lens2 D) gn) {m : Map} {q v : Int}
    (hq : Global (nodeLens ps) q) (hv : m.apply (-1) v = .ok q) : oldNode gnO1 gn m v = .ok (renum ps D q) := by
  obtain ⟨r, d, hd, ho, e, hn, ho2, -⟩ := old_spec h hq
  unfold oldNode
  rw [hv, Res.ok_bind, search_of_owns hg1 ho, Res.ok_bind]
  show gn.apply r (q - before (nodeLens ps) r) = _
  obtain ⟨l1, l2⟩ := List.getElem?_eq_some_iff.1 (lens2_at hd)
  have hlen := (h.ok r d hd).ownLen
  have h0 := ho.2.1
  rw [apply_eq hg r l1, if_pos ⟨by omega, by rw [l2]; omega⟩, e]

theorem oldNodes_spec (h : All per P ps X D) {gnO1 gn : GOM} (hg1 : Built (nodeLens ps) gnO1) (hg : Built (lens2 D) gn) {m : Map} {qs vs : List Int}
    (hl : vs.length = qs.length)
    (hv : ∀ (k : Nat) (q v : Int), qs[k]? = some q → vs[k]? = some v → Global (nodeLens ps) q ∧ m.apply (-1) v = .ok q) :
    forRanks (fun _ v => oldNode gnO1 gn m v) 0 vs = .ok (qs.map (renum ps D)) := by
  rw [forRanks_ok]
  refine ⟨by rw [List.length_map, hl], ?_⟩
  intro k v hk
  obtain ⟨q, hq⟩ := at_some (l := qs) (r := k) (by rw [← hl]; exact some_lt hk)
  obtain ⟨h1, h2⟩ := hv k q v hq hk
  exact ⟨_, by rw [List.getElem?_map, hq]; rfl, oldNode_spec h hg1 hg h1 h2⟩

/-- the numbers of the new mesh -/
theorem naming_facts (hE : Elevatable per P ps X) (h : All per P ps X D) {R : List (List Int)} (hN : Named per P ps X D R) :
    (∀ q q', Global (nodeLens ps) q → Global (nodeLens ps) q' → renum ps D q = renum ps D q' → q = q') ∧
    (∀ (i k : Nat) (C : Cell) (q : Int), IsNew ps i k C → Global (nodeLens ps) q → number ps R i k ≠ renum ps D q) := by
  constructor
  · intro q q' hq hq' e
    obtain ⟨r, d, hd, ho, e1, hn, ho2, -⟩ := old_spec h hq
    obtain ⟨r', d', hd', ho', e1', hn', ho2', -⟩ := old_spec h hq'
    rw [e] at ho2
    have := owns_unique ho2 ho2'
    subst this
    omega
  · intro i k C q hk hq e
    obtain ⟨r, d, hd, ho, e1, hn, ho2, -⟩ := old_spec h hq
    obtain ⟨_, _, _, _, r', d', _, _, _, _, f3, f4, _, f6, _⟩ := number_spec hE hN hk
    rw [e] at f4 f6
    have := owns_unique ho2 f4
    subst this
    rw [hd] at f3; cases f3
    omega

end DNDSR.Elev
