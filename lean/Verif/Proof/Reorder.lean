import Verif.Proof.GhostMesh
import Verif.Spec.Reorder

/-!
# The same mesh under new numbers
-/

namespace DNDSR.Reorder

open DNDSR.IMap DNDSR.MeshAdj DNDSR.Faces DNDSR.Ghost DNDSR.Elem

variable {ps ps' : List Piece} {π : Int → Int}

theorem lens_eq {α : Type} (f : Piece → α) (h : Renumbered ps ps' π)
    (hf : ∀ (r : Nat) (p p' : Piece), ps[r]? = some p → ps'[r]? = some p' → f p' = f p) : ps'.map f = ps.map f := by
  refine List.ext_getElem? fun r => ?_
  rw [List.getElem?_map, List.getElem?_map]
  by_cases hr : r < ps.length
  · have hr' : r < ps'.length := by rw [h.ranks]; exact hr
    rw [List.getElem?_eq_getElem hr, List.getElem?_eq_getElem hr', Option.map_some, Option.map_some,
      hf r _ _ (List.getElem?_eq_getElem hr) (List.getElem?_eq_getElem hr')]
  · rw [List.getElem?_eq_none (by rw [h.ranks]; omega), List.getElem?_eq_none (by omega)]

theorem Renumbered.cellLens (h : Renumbered ps ps' π) : cellLens ps' = cellLens ps :=
  lens_eq _ h fun r p p' hp hp' => (h.same r p p' hp hp').1

theorem Renumbered.nodeLens (h : Renumbered ps ps' π) : nodeLens ps' = nodeLens ps :=
  lens_eq _ h fun r p p' hp hp' => (h.same r p p' hp hp').2.2

theorem Renumbered.global (h : Renumbered ps ps' π) {c : Int} (hc : Global (Ghost.cellLens ps) c) : Global (Ghost.cellLens ps) (π c) := by
  obtain ⟨r, hr⟩ := owns_exists hc.1 hc.2
  exact owns_range (h.own r c hr)

theorem Renumbered.owns_iff (h : Renumbered ps ps' π) {r : Nat} {c : Int} (hc : Global (Ghost.cellLens ps) c) :
    Owns (Ghost.cellLens ps) r (π c) ↔ Owns (Ghost.cellLens ps) r c := by
  refine ⟨fun ho => ?_, h.own r c⟩
  obtain ⟨s, hs⟩ := owns_exists hc.1 hc.2
  rw [owns_unique ho (h.own s c hs)]
  exact hs

theorem Renumbered.isCell_iff (h : Renumbered ps ps' π) {c : Int} (hc : Global (Ghost.cellLens ps) c) (C : Cell) :
    IsCell ps' (π c) C ↔ IsCell ps c C := by
  refine ⟨fun hC => ?_, h.cell c C⟩
  obtain ⟨D, hD⟩ := global_isCell hc
  rw [isCell_unique hC (h.cell c D hD)]
  exact hD

theorem Renumbered.hasNode_iff (h : Renumbered ps ps' π) {c : Int} (hc : Global (Ghost.cellLens ps) c) (q : Int) :
    HasNode ps' (π c) q ↔ HasNode ps c q :=
  exists_congr fun C => and_congr_left fun _ => h.isCell_iff hc C

theorem hasNode_global {c q : Int} (h : HasNode ps c q) : Global (cellLens ps) c := by
  obtain ⟨C, hC, _⟩ := h; exact isCell_global hC

/-- a cell of the new mesh is a cell of the old one under its new number -/
theorem Renumbered.back (h : Renumbered ps ps' π) {d : Int} (hd : Global (Ghost.cellLens ps') d) :
    ∃ c, Global (Ghost.cellLens ps) c ∧ π c = d := h.onto d (h.cellLens ▸ hd)

theorem Renumbered.touches_iff (h : Renumbered ps ps' π) {r : Nat} {c : Int} (hc : Global (Ghost.cellLens ps) c) :
    Touches ps' r (π c) ↔ Touches ps r c := by
  constructor
  · rintro ⟨d, q, h1, h2, h3⟩
    obtain ⟨e, he, rfl⟩ := h.back (hasNode_global h2)
    rw [h.cellLens] at h1
    exact ⟨e, q, (h.owns_iff he).1 h1, (h.hasNode_iff he q).1 h2, (h.hasNode_iff hc q).1 h3⟩
  · rintro ⟨d, q, h1, h2, h3⟩
    have hd := hasNode_global h2
    exact ⟨π d, q, by rw [h.cellLens]; exact h.own r d h1, (h.hasNode_iff hd q).2 h2, (h.hasNode_iff hc q).2 h3⟩

theorem Renumbered.covers_iff (h : Renumbered ps ps' π) {c : Int} (hc : Global (Ghost.cellLens ps) c) (b : Bnd) : Covers ps' (π c) b ↔ Covers ps c b :=
  forall_congr' fun q => imp_congr_right fun _ => h.hasNode_iff hc q

/-- the new number; "no cell" stays "no cell" -/
def rename (π : Int → Int) (c : Int) : Int := if c = Faces.unInit then Faces.unInit else π c

theorem unInit_not_global {lens : List Nat} : ¬ Global lens Faces.unInit := by
  rintro ⟨h, _⟩; exact absurd h (by decide)

theorem rename_global {c : Int} (h : Global (cellLens ps) c) : rename π c = π c :=
  if_neg fun e => unInit_not_global (e ▸ h)

theorem covers_global {b : Bnd} (hb : b.nodes ≠ []) {c : Int} (h : Covers ps c b) : Global (cellLens ps) c := by
  obtain ⟨q, hq⟩ := List.exists_mem_of_ne_nil _ hb
  exact hasNode_global (h q hq)

theorem bndOk_global {per : Bool} {b : Bnd} (hb : b.nodes ≠ []) {x : Int × Int} (h : BndOk per ps b x) :
    Global (cellLens ps) x.1 ∧ (x.2 = Faces.unInit ∨ Global (cellLens ps) x.2) := by
  unfold BndOk at h
  by_cases hz : per = true ∧ isPeriodicId b.zone = true
  · rw [if_pos hz] at h
    exact ⟨covers_global hb ((h.2.1 _).2 (Or.inl rfl)), Or.inr (covers_global hb ((h.2.1 _).2 (Or.inr rfl)))⟩
  · rw [if_neg hz] at h
    exact ⟨covers_global hb ((h.2 _).2 rfl), Or.inl h.1⟩

theorem Renumbered.bndOk (h : Renumbered ps ps' π) {per : Bool} {b : Bnd} (hb : b.nodes ≠ []) {x : Int × Int} (hx : BndOk per ps b x) :
    BndOk per ps' b (rename π x.1, rename π x.2) := by
  obtain ⟨g1, g2⟩ := bndOk_global hb hx
  unfold BndOk at hx ⊢
  by_cases hz : per = true ∧ isPeriodicId b.zone = true
  · rw [if_pos hz] at hx ⊢
    obtain ⟨h1, h2, C0, C1, h3, h4, h5, h6⟩ := hx
    have g2' := covers_global hb ((h2 _).2 (Or.inr rfl))
    simp only [rename_global g1, rename_global g2']
    refine ⟨fun e => h1 (h.inj _ _ g1 g2' e), fun c => ?_, C0, C1, h.cell _ _ h3, h.cell _ _ h4, h5, h6⟩
    constructor
    · intro hc
      obtain ⟨d, hd, rfl⟩ := h.back (covers_global hb hc)
      rcases (h2 d).1 ((h.covers_iff hd b).1 hc) with rfl | rfl
      · exact Or.inl rfl
      · exact Or.inr rfl
    · rintro (rfl | rfl)
      · exact (h.covers_iff g1 b).2 ((h2 _).2 (Or.inl rfl))
      · exact (h.covers_iff g2' b).2 ((h2 _).2 (Or.inr rfl))
  · rw [if_neg hz] at hx ⊢
    refine ⟨by simp only [hx.1]; exact if_pos rfl, fun c => ?_⟩
    simp only [rename_global g1]
    constructor
    · intro hc
      obtain ⟨d, hd, rfl⟩ := h.back (covers_global hb hc)
      rw [(hx.2 d).1 ((h.covers_iff hd b).1 hc)]
    · rintro rfl
      exact (h.covers_iff g1 b).2 ((hx.2 _).2 rfl)

theorem Renumbered.slot_back (h : Renumbered ps ps' π) {per : Bool} {i j : Nat} {a : Slot} (ha : IsSlot per (whole ps') i j a) :
    ∃ k : Nat, π k = i ∧ IsSlot per (whole ps) k j a := by
  obtain ⟨C, hC, hj, rfl⟩ := ha
  have hc : IsCell ps' (i : Int) C := ⟨by omega, by simpa using hC⟩
  obtain ⟨c, hg, e⟩ := h.back (isCell_global hc)
  obtain ⟨k, rfl⟩ := Int.eq_ofNat_of_zero_le hg.1
  have := (h.isCell_iff hg C).1 (e ▸ hc)
  exact ⟨k, e, C, by simpa using this.2, hj, rfl⟩

theorem Renumbered.mem_whole (h : Renumbered ps ps' π) {C : Cell} (hC : C ∈ whole ps') : C ∈ whole ps := by
  obtain ⟨i, hi⟩ := List.mem_iff_getElem?.1 hC
  have hc : IsCell ps' (i : Int) C := ⟨by omega, by simpa using hi⟩
  obtain ⟨c, hg, e⟩ := h.back (isCell_global hc)
  exact List.mem_of_getElem? ((h.isCell_iff hg C).1 (e ▸ hc)).2

theorem Renumbered.meshOk (h : Renumbered ps ps' π) {per : Bool} (hM : MeshOk per ps) : MeshOk per ps' := by
  have hat : ∀ (r : Nat) (p' : Piece), ps'[r]? = some p' → ∃ p, ps[r]? = some p ∧ p'.bnds = p.bnds := by
    intro r p' hp'
    have hr : r < ps.length := by rw [← h.ranks]; exact (List.getElem?_eq_some_iff.1 hp').1
    exact ⟨_, List.getElem?_eq_getElem hr, (h.same r _ p' (List.getElem?_eq_getElem hr) hp').2.1⟩
  refine ⟨?_, ?_, ?_, ?_, ?_⟩
  · intro C hC
    rw [h.nodeLens]
    exact hM.valid C (h.mem_whole hC)
  · intro i j i' j' a b ha hb
    obtain ⟨k, -, ha'⟩ := h.slot_back ha
    obtain ⟨k', -, hb'⟩ := h.slot_back hb
    exact hM.conforming k j k' j' a b ha' hb'
  · intro i1 j1 i2 j2 i3 j3 a b c ha hb hc s1 s2
    obtain ⟨k1, e1, ha'⟩ := h.slot_back ha
    obtain ⟨k2, e2, hb'⟩ := h.slot_back hb
    obtain ⟨k3, e3, hc'⟩ := h.slot_back hc
    have key : ∀ {u v x y s t : Nat}, π s = u → π t = v → (s, x) = (t, y) → (u, x) = (v, y) := by
      rintro u v x y s t h1 h2 he
      cases he
      rw [h1] at h2
      rw [Int.ofNat_inj.1 h2]
    rcases hM.two k1 j1 k2 j2 k3 j3 a b c ha' hb' hc' s1 s2 with e | e | e
    · exact Or.inl (key e1 e2 e)
    · exact Or.inr (Or.inl (key e1 e3 e))
    · exact Or.inr (Or.inr (key e2 e3 e))
  · intro p' hp' b hb
    obtain ⟨r, hr⟩ := List.mem_iff_getElem?.1 hp'
    obtain ⟨p, hp, e⟩ := hat r p' hr
    rw [h.nodeLens]
    exact hM.bnds p (List.mem_of_getElem? hp) b (e ▸ hb)
  · intro r p' b hp' hb
    obtain ⟨p, hp, e⟩ := hat r p' hp'
    rw [e] at hb
    obtain ⟨x, h1, h2⟩ := hM.home r p b hp hb
    have hne := (hM.bnds p (List.mem_of_getElem? hp) b hb).1
    have hg := (bndOk_global hne h1).1
    refine ⟨_, h.bndOk hne h1, ?_⟩
    simp only [rename_global hg]
    exact (h.touches_iff hg).2 h2

/-- the neighbours under new numbers -/
theorem Renumbered.row (h : Renumbered ps ps' π) {i : Int} (hi : Global (Ghost.cellLens ps) i) {row : List Int} (hn : row.Nodup)
    (hrow : ∀ c, c ∈ row ↔ c ≠ i ∧ ∃ q, HasNode ps i q ∧ HasNode ps c q) :
    (row.map (rename π)).Nodup ∧ ∀ d, d ∈ row.map (rename π) ↔ d ≠ π i ∧ ∃ q, HasNode ps' (π i) q ∧ HasNode ps' d q := by
  have hg : ∀ c ∈ row, Global (Ghost.cellLens ps) c := by
    intro c hc
    obtain ⟨_, q, _, h2⟩ := (hrow c).1 hc
    exact hasNode_global h2
  constructor
  · refine List.pairwise_map.2 (hn.imp_of_mem ?_)
    intro a b ha hb hab e
    rw [rename_global (hg a ha), rename_global (hg b hb)] at e
    exact hab (h.inj _ _ (hg a ha) (hg b hb) e)
  · intro d
    rw [List.mem_map]
    constructor
    · rintro ⟨c, hc, rfl⟩
      rw [rename_global (hg c hc)]
      obtain ⟨h1, q, h2, h3⟩ := (hrow c).1 hc
      exact ⟨fun e => h1 (h.inj _ _ (hg c hc) hi e), q, (h.hasNode_iff hi q).2 h2, (h.hasNode_iff (hg c hc) q).2 h3⟩
    · rintro ⟨h1, q, h2, h3⟩
      obtain ⟨c, hc, rfl⟩ := h.back (hasNode_global h3)
      refine ⟨c, (hrow c).2 ⟨fun e => h1 (by rw [e]), q, (h.hasNode_iff hi q).1 h2, (h.hasNode_iff hc q).1 h3⟩, rename_global hc⟩

end DNDSR.Reorder
