import Verif.Proof.BisectMeet
import Verif.Proof.ElevChoose
import Mathlib.Data.List.Perm.Basic

/-!
# An elevated mesh is closed if the mesh was
-/

namespace DNDSR.Bisect

open DNDSR.IMap DNDSR.MeshAdj DNDSR.Faces DNDSR.Elev DNDSR.Ghost
open DNDSR.Elem hiding V3
open DNDSR.Per (V3 Periodicity)

/-- the number, among the new nodes of the element, of new node `i` of face `g` -/
def newOf (t : ElemType) (g i : Nat) : Nat := at_ (fnodes (elevatedType t) g) ((numNodes (faceType t g)).toNat + i) - (numNodes t).toNat

theorem elev_face (t : ElemType) (ht : order t = 1) (hd : 2 ≤ dim t) : ∀ g ∈ List.range (numFaces t).toNat,
    fnodes (elevatedType t) g = fnodes t g ++
      (List.range (numElev (faceType t g)).toNat).map (fun i => (numNodes t).toNat + newOf t g i) ∧
    faceType (elevatedType t) g = elevatedType (faceType t g) ∧
    (fnodes t g).length = (numNodes (faceType t g)).toNat ∧ (∀ k ∈ fnodes t g, k < (numNodes t).toNat) ∧
    numVertices (faceType t g) = numNodes (faceType t g) ∧
    (∀ i ∈ List.range (numElev (faceType t g)).toNat, newOf t g i < (numElev t).toNat ∧
      (span t (newOf t g i)).Perm ((span (faceType t g) i).map (at_ (fnodes t g)))) := by
  cases t <;> first | exact absurd ht (by decide) | exact absurd hd (by decide) | decide +kernel

theorem elev_faceLike (t : ElemType) (ht : order t = 1) (hd : 2 ≤ dim t) : ∀ g ∈ List.range (numFaces t).toNat, FaceLike1 (faceType t g) := by
  unfold FaceLike1
  cases t <;> first | exact absurd ht (by decide) | exact absurd hd (by decide) | decide +kernel

theorem elev_basic (t : ElemType) (ht : order t = 1) (hd : 2 ≤ dim t) :
    order (elevatedType t) = 2 ∧ 2 ≤ dim (elevatedType t) ∧ numFaces (elevatedType t) = numFaces t := by
  cases t <;> first | exact absurd ht (by decide) | exact absurd hd (by decide) | decide

/-- reading the face in the opposite sense exchanges the new nodes accordingly -/
theorem revs_elev (t : ElemType) (ht : FaceLike1 t) : ∀ σ ∈ revs t, ∃ τ ∈ (revs (elevatedType t)).map (fun σ' => σ'.drop (numNodes t).toNat),
    σ ++ τ ∈ revs (elevatedType t) ∧ τ.length = (numElev t).toNat ∧
    ∀ i ∈ List.range (numElev t).toNat, at_ τ i - (numNodes t).toNat ∈ List.range (numElev t).toNat ∧ (numNodes t).toNat ≤ at_ τ i ∧
      (span t (at_ τ i - (numNodes t).toNat)).Perm ((span t i).map (at_ σ)) := by
  rcases ht with rfl | rfl | rfl <;> decide +kernel

theorem rots_id (t : ElemType) (ht : FaceLike1 t) : List.range (numNodes (elevatedType t)).toNat ∈ rots (elevatedType t) ∧
    numNodes (elevatedType t) = numNodes t + numElev t ∧ 0 ≤ numNodes t ∧ 0 ≤ numElev t := by
  rcases ht with rfl | rfl | rfl <;> decide +kernel

theorem span_lengths (t : ElemType) (ht : FaceLike1 t) : ∀ i ∈ List.range (numElev t).toNat, ∀ k ∈ span t i, k < (numNodes t).toNat := by
  rcases ht with rfl | rfl | rfl <;> decide +kernel

theorem nodesAt_append (N : List Int) (a b : List Nat) : nodesAt N (a ++ b) = nodesAt N a ++ nodesAt N b := by simp [nodesAt]

variable {per : Bool} {P : Periodicity} {X : Int → V3} {ps : List Piece} {outs : List RankO2} {ν : Int → Int} {N : Nat → Nat → Int}

/-- the nodes of a face of an elevated cell -/
theorem faceNodes_elev {C : Cell} {i g : Nat} (ho : order C.type = 1) (hd : 2 ≤ dim C.type) (hl : C.nodes.length = (numNodes C.type).toNat)
    (hg : g < (numFaces C.type).toNat) : faceNodes (elevCell per ν N i C) g =
      (faceNodes C g).map ν ++ (List.range (numElev (faceType C.type g)).toNat).map (fun k => N i (newOf C.type g k)) := by
  obtain ⟨h1, _, _, h4, _, h6⟩ := elev_face C.type ho hd g (List.mem_range.2 hg)
  show nodesAt (elevCell per ν N i C).nodes (fnodes (elevatedType C.type) g) = _
  rw [h1, nodesAt_append]
  congr 1
  · show (fnodes C.type g).map _ = ((fnodes C.type g).map _).map ν
    rw [List.map_map]
    refine List.map_congr_left ?_
    intro k hk
    have hkl : k < C.nodes.length := by rw [hl]; exact h4 k hk
    simp only [elevCell, Function.comp]
    rw [List.getElem?_append_left (by simpa using hkl), List.getElem?_map, List.getElem?_eq_getElem hkl]
    rfl
  · show ((List.range _).map _).map _ = _
    rw [List.map_map]
    refine List.map_congr_left ?_
    intro k hk
    simp only [elevCell, Function.comp]
    rw [List.getElem?_append_right (by simp [hl]), List.length_map, hl, Nat.add_sub_cancel_left, List.getElem?_map,
      List.getElem?_range (h6 k hk).1]
    rfl

theorem spanOf_new {C : Cell} {g k : Nat} (ho : order C.type = 1) (hd : 2 ≤ dim C.type)
    (hg : g < (numFaces C.type).toNat) (hk : k < (numElev (faceType C.type g)).toNat) :
    (spanOf C (newOf C.type g k)).Perm (nodesAt (faceNodes C g) (span (faceType C.type g) k)) := by
  obtain ⟨_, _, h3, _, _, h6⟩ := elev_face C.type ho hd g (List.mem_range.2 hg)
  rw [show nodesAt (faceNodes C g) (span (faceType C.type g) k) = nodesAt C.nodes ((span (faceType C.type g) k).map (at_ (fnodes C.type g))) from
    nodesAt_comp _ _ _ (fun a ha => by
      rw [h3]; exact span_lengths _ (elev_faceLike C.type ho hd g (List.mem_range.2 hg)) k (List.mem_range.2 hk) a ha)]
  exact ((h6 k (List.mem_range.2 hk)).2).map _

theorem elevated_meet (hE : Elevatable per P ps X) (h : Elevated per P ps X outs ν N) {C D : Cell} {i j g g' : Nat}
    (hC : (whole ps)[i]? = some C) (hD : (whole ps)[j]? = some D) (hdC : 2 ≤ dim C.type) (hdD : 2 ≤ dim D.type)
    (hg : g < (numFaces C.type).toNat) (hg' : g' < (numFaces D.type).toNat) (hm : Meet C g D g') :
    Meet (elevCell per ν N i C) g (elevCell per ν N j D) g' := by
  have mC := List.mem_of_getElem? hC
  have mD := List.mem_of_getElem? hD
  have oC := hE.order C mC
  have oD := hE.order D mD
  obtain ⟨ht, σ, hσ, e⟩ := hm
  have fC := elev_face C.type oC hdC g (List.mem_range.2 hg)
  have fD := elev_face D.type oD hdD g' (List.mem_range.2 hg')
  have hfl := elev_faceLike C.type oC hdC g (List.mem_range.2 hg)
  have G := rots_group _ hfl
  obtain ⟨τ, _, hτ, hτl, hτs⟩ := revs_elev _ hfl σ hσ
  refine ⟨by show faceType (elevatedType C.type) g = faceType (elevatedType D.type) g'; rw [fC.2.1, fD.2.1, ht], σ ++ τ, ?_, ?_⟩
  · show _ ∈ revs (faceType (elevatedType C.type) g)
    rw [fC.2.1]; exact hτ
  · have lC : (faceNodes C g).length = (numNodes (faceType C.type g)).toNat := by rw [faceNodes, nodesAt_length]; exact fC.2.2.1
    rw [faceNodes_elev oC hdC (hE.len mC) hg, faceNodes_elev oD hdD (hE.len mD) hg', nodesAt_append]
    congr 1
    · rw [e]
      unfold nodesAt
      rw [List.map_map]
      refine List.map_congr_left ?_
      intro k hk
      have hkl : k < (faceNodes C g).length := by rw [lC]; exact (G.2.2.2.2 σ hσ).2 k hk
      simp only [Function.comp]
      rw [List.getElem?_append_left (by simpa using hkl), List.getElem?_map, List.getElem?_eq_getElem hkl]
      rfl
    · rw [← ht]
      refine List.ext_getElem (by simp [nodesAt, hτl]) ?_
      intro n h1 h2
      have hn : n < (numElev (faceType C.type g)).toNat := by simpa using h1
      have hnτ : n < τ.length := by omega
      obtain ⟨s1, s2, s3⟩ := hτs n (List.mem_range.2 hn)
      rw [List.mem_range] at s1
      have ha : at_ τ n = τ[n] := by simp [at_, List.getElem?_eq_getElem hnτ]
      have hv : ∀ m, m = at_ τ n → ((faceNodes C g).map ν ++ (List.range (numElev (faceType C.type g)).toNat).map
          (fun k => N i (newOf C.type g k)))[m]?.getD 0 = N i (newOf C.type g (at_ τ n - (numNodes (faceType C.type g)).toNat)) := by
        rintro _ rfl
        rw [List.getElem?_append_right (by rw [List.length_map, lC]; omega), List.length_map, lC, List.getElem?_map,
          List.getElem?_range s1]
        rfl
      simp only [nodesAt, List.getElem_map, List.getElem_range]
      refine Eq.trans ?_ (hv _ ha.symm).symm
      have hnD : n < (numElev (faceType D.type g')).toNat := by rw [← ht]; exact hn
      refine (h.iff j _ i _ D C ⟨hD, (fD.2.2.2.2.2 n (List.mem_range.2 hnD)).1⟩ ⟨hC, (fC.2.2.2.2.2 _ (List.mem_range.2 s1)).1⟩).2 ?_
      refine (spanOf_new oC hdC hg s1).trans (List.Perm.trans ?_ (spanOf_new oD hdD hg' hnD).symm)
      rw [e, ← ht, nodesAt_comp]
      · exact s3.map _
      · intro k hk
        rw [(G.2.2.2.2 σ hσ).1]
        exact span_lengths _ hfl n (List.mem_range.2 hn) k hk

/-- a boundary element that has the nodes of the face in the order of the face -/
theorem isFace_self {C : Cell} {i g : Nat} (ho : order C.type = 1) (hd : 2 ≤ dim C.type) (hl : C.nodes.length = (numNodes C.type).toNat)
    (hg : g < (numFaces C.type).toNat) :
    IsFace (faceType (elevatedType C.type) g, faceNodes (elevCell per ν N i C) g) (elevCell per ν N i C) g := by
  obtain ⟨_, h2, h3, _, _, _⟩ := elev_face C.type ho hd g (List.mem_range.2 hg)
  have hfl := elev_faceLike C.type ho hd g (List.mem_range.2 hg)
  obtain ⟨r1, r2, r3, r4⟩ := rots_id _ hfl
  refine ⟨rfl, _, (by show _ ∈ rots (faceType (elevatedType C.type) g); rw [h2]; exact r1), ?_⟩
  refine (nodesAt_range _ _ ?_).symm
  rw [faceNodes_elev ho hd hl hg, List.length_append, List.length_map, List.length_map, List.length_range, faceNodes, nodesAt_length, h3]
  omega

end DNDSR.Bisect
