import Verif.Proof.BisectTables

/-!
# Faces of the parts of cells meet when the faces of the cells do
-/

namespace DNDSR.Bisect

open DNDSR.Faces
open DNDSR.Elem hiding V3

theorem nodesAt_length (N : List Int) (l : List Nat) : (nodesAt N l).length = l.length := by simp [nodesAt]

theorem nodesAt_comp (N : List Int) (a ρ : List Nat) (h : ∀ k ∈ ρ, k < a.length) :
    nodesAt (nodesAt N a) ρ = nodesAt N (ρ.map (at_ a)) := by
  unfold nodesAt
  rw [List.map_map]
  refine List.map_congr_left ?_
  intro k hk
  have := h k hk
  simp [at_, List.getElem?_eq_getElem this]

theorem nodesAt_range (N : List Int) (n : Nat) (h : N.length = n) : nodesAt N (List.range n) = N := by
  refine List.ext_getElem (by simp [nodesAt, h]) ?_
  intro i h1 h2
  simp [nodesAt, List.getElem?_eq_getElem h2]

/-- what the cut needs of a cell -/
structure CellOk (C : Cell) (v : Nat) : Prop where
  order : order C.type = 2
  dim : 2 ≤ dim C.type
  variant : v < (bisectVariants C.type).toNat

variable {C D : Cell} {v w : Nat} {per : Bool}

theorem faceNodes_child (h : CellOk C v) {p f : Nat} (hp : p < (bisectNum C.type).toNat)
    (hf : f < (numFaces (bisectElem C.type p)).toNat) : faceNodes (child per v C p) f = nodesAt C.nodes (sideOf C.type v p f) := by
  have hl := part_lengths C.type h.order v (List.mem_range.2 h.variant) p (List.mem_range.2 hp)
  have hk := (face_lengths1 (bisectElem C.type p) hl.2.1 f (List.mem_range.2 hf)).2
  exact nodesAt_comp _ _ _ (fun k hk' => by rw [hl.1]; exact hk k hk')

theorem faceNodes_child_length (h : CellOk C v) {p f : Nat} (hp : p < (bisectNum C.type).toNat)
    (hf : f < (numFaces (bisectElem C.type p)).toNat) :
    (faceNodes (child per v C p) f).length = (numNodes (faceType (bisectElem C.type p) f)).toNat := by
  have hl := part_lengths C.type h.order v (List.mem_range.2 h.variant) p (List.mem_range.2 hp)
  rw [faceNodes, nodesAt_length]
  exact (face_lengths1 (bisectElem C.type p) hl.2.1 f (List.mem_range.2 hf)).1

theorem sideOf_length (h : CellOk C v) {p f : Nat} (hp : p < (bisectNum C.type).toNat)
    (hf : f < (numFaces (bisectElem C.type p)).toNat) :
    (sideOf C.type v p f).length = (numNodes (faceType (bisectElem C.type p) f)).toNat := by
  have := faceNodes_child_length (per := false) h hp hf
  rwa [faceNodes_child h hp hf, nodesAt_length] at this

theorem partNodes (h : CellOk C v) {g q : Nat} (hg : g < (numFaces C.type).toNat) (hq : q < (bisectNum (faceType C.type g)).toNat) :
    nodesAt (faceNodes C g) (part (faceType C.type g) 0 q) = nodesAt C.nodes (bpart C.type g q) := by
  have hl := (ways_lengths _ (faceLike C.type h.order h.dim g (List.mem_range.2 hg))).2.2 q (List.mem_range.2 hq)
  exact nodesAt_comp _ _ _ (fun k hk => by rw [(face_lengths C.type h.order g (List.mem_range.2 hg)).1]; exact hl.2 k hk)

/-- face `f` of part `p` is part `q` of face `g`, read from some corner -/
structure On (per : Bool) (v : Nat) (C : Cell) (p f g q : Nat) : Prop where
  hp : p < (bisectNum C.type).toNat
  hf : f < (numFaces (bisectElem C.type p)).toNat
  hg : g < (numFaces C.type).toNat
  hq : q < (bisectNum (faceType C.type g)).toNat
  type : bisectElem (faceType C.type g) q = faceType (bisectElem C.type p) f
  ways : ∃ ρ ∈ rots (faceType (bisectElem C.type p) f),
    nodesAt (faceNodes C g) (part (faceType C.type g) 0 q) = nodesAt (faceNodes (child per v C p) f) ρ
  mem : ∀ a ∈ sideOf C.type v p f, a ∈ fnodes C.type g

theorem reads_mem (t : ElemType) (ht : FaceLike1 t) {a b : List Nat} (ha : a.length = (numNodes t).toNat)
    (h : Reads (rots t) a b) : ∀ k ∈ a, k ∈ b := by
  obtain ⟨ρ, hρ, rfl⟩ := h
  obtain ⟨ρ', hρ', e⟩ := (rots_group t ht).1 ρ hρ
  have hl := (rots_group t ht).2.2.2.1
  intro k hk
  obtain ⟨i, hi, rfl⟩ := List.getElem_of_mem hk
  rw [ha] at hi
  have : i ∈ ρ'.map (at_ ρ) := by rw [e]; exact List.mem_range.2 hi
  obtain ⟨j, hj, ej⟩ := List.mem_map.1 this
  have hjl : j < ρ.length := by rw [(hl ρ hρ).1]; exact (hl ρ' hρ').2 j hj
  refine List.mem_map.2 ⟨i, ?_, by simp [at_, List.getElem?_eq_getElem (show i < a.length by omega)]⟩
  rw [← ej, at_, List.getElem?_eq_getElem hjl]
  exact List.getElem_mem hjl

theorem on_of (h : CellOk C v) {p f g q : Nat} (hp : p < (bisectNum C.type).toNat)
    (hf : f < (numFaces (bisectElem C.type p)).toNat) (hg : g < (numFaces C.type).toNat) (hq : q < (bisectNum (faceType C.type g)).toNat)
    (ht : bisectElem (faceType C.type g) q = faceType (bisectElem C.type p) f)
    (hr : Reads (rots (faceType (bisectElem C.type p) f)) (sideOf C.type v p f) (bpart C.type g q)) : On per v C p f g q := by
  have hft := childFace C.type h.order h.dim p (List.mem_range.2 hp) f (List.mem_range.2 hf)
  refine ⟨hp, hf, hg, hq, ht, ?_, ?_⟩
  · obtain ⟨ρ, hρ, e⟩ := hr
    refine ⟨ρ, hρ, ?_⟩
    rw [partNodes h hg hq, e, faceNodes_child h hp hf, nodesAt_comp]
    intro k hk
    rw [sideOf_length h hp hf]
    exact ((rots_group _ hft).2.2.2.1 ρ hρ).2 k hk
  · intro a ha
    have hb := reads_mem _ hft (sideOf_length h hp hf) hr a ha
    obtain ⟨k, hk, rfl⟩ := List.mem_map.1 hb
    have hl := (ways_lengths _ (faceLike C.type h.order h.dim g (List.mem_range.2 hg))).2.2 q (List.mem_range.2 hq)
    have hkl : k < (fnodes C.type g).length := by
      rw [(face_lengths C.type h.order g (List.mem_range.2 hg)).1]; exact hl.2 k hk
    rw [at_, List.getElem?_eq_getElem hkl]
    exact List.getElem_mem hkl

/-- a face of a part meets another part of the cell or lies on a face -/
theorem side_cases (per : Bool) (h : CellOk C v) {p f : Nat} (hp : p < (bisectNum C.type).toNat) (hf : f < (numFaces (bisectElem C.type p)).toNat) :
    (∃ p' f', p' < (bisectNum C.type).toNat ∧ f' < (numFaces (bisectElem C.type p')).toNat ∧ (p', f') ≠ (p, f) ∧
      Meet (child per v C p) f (child per v C p') f') ∨ ∃ g q, On per v C p f g q := by
  have hft := childFace C.type h.order h.dim p (List.mem_range.2 hp) f (List.mem_range.2 hf)
  rcases sides_meet C.type h.order h.dim v (List.mem_range.2 h.variant) p (List.mem_range.2 hp) f (List.mem_range.2 hf) with
    ⟨p', hp', f', hf', hne, ht, σ, hσ, e⟩ | ⟨g, hg, q, hq, ht, hr⟩
  · refine Or.inl ⟨p', f', List.mem_range.1 hp', List.mem_range.1 hf', hne, ht, σ, hσ, ?_⟩
    rw [faceNodes_child h hp hf, faceNodes_child h (List.mem_range.1 hp') (List.mem_range.1 hf'), nodesAt_comp, e]
    intro k hk
    rw [sideOf_length h hp hf]
    exact ((rots_group _ hft).2.2.2.2 σ hσ).2 k hk
  · exact Or.inr ⟨g, q, on_of h hp hf (List.mem_range.1 hg) (List.mem_range.1 hq) ht hr⟩

/-- every part of a face is a face of a part -/
theorem on_exists (per : Bool) (h : CellOk C v) {g q : Nat} (hg : g < (numFaces C.type).toNat) (hq : q < (bisectNum (faceType C.type g)).toNat) :
    ∃ p f, On per v C p f g q := by
  obtain ⟨p, hp, f, hf, ht, hr⟩ := parts_sides C.type h.order h.dim v (List.mem_range.2 h.variant) g (List.mem_range.2 hg) q (List.mem_range.2 hq)
  exact ⟨p, f, on_of h (List.mem_range.1 hp) (List.mem_range.1 hf) hg hq ht hr⟩

theorem on_unique (h : CellOk C v) {p f g q g' q' : Nat} (h1 : On per v C p f g q) (h2 : On per v C p f g' q') : g = g' :=
  side_unique C.type h.order h.dim v (List.mem_range.2 h.variant) p (List.mem_range.2 h1.hp) f (List.mem_range.2 h1.hf) g
    (List.mem_range.2 h1.hg) g' (List.mem_range.2 h2.hg) h1.mem h2.mem

/-- Reading back: a list that is read from `S` gives `S`. -/
theorem read_back {t : ElemType} (ht : FaceLike1 t) {S P : List Int} (hS : S.length = (numNodes t).toNat) {ρ : List Nat} (hρ : ρ ∈ rots t)
    (e : P = nodesAt S ρ) : ∃ ρ' ∈ rots t, S = nodesAt P ρ' := by
  obtain ⟨ρ', hρ', e'⟩ := (rots_group t ht).1 ρ hρ
  refine ⟨ρ', hρ', ?_⟩
  rw [e, nodesAt_comp, e', nodesAt_range _ _ hS]
  intro k hk
  rw [((rots_group t ht).2.2.2.1 ρ hρ).1]
  exact ((rots_group t ht).2.2.2.1 ρ' hρ').2 k hk

/-- parts of faces that meet meet -/
theorem across (h : CellOk C v) (h' : CellOk D w) {p f g q g' : Nat} (ho : On per v C p f g q) (hg' : g' < (numFaces D.type).toNat)
    (hm : Meet C g D g') : ∃ p' f' q', On per w D p' f' g' q' ∧ Meet (child per v C p) f (child per w D p') f' := by
  obtain ⟨hty, σ, hσ, e⟩ := hm
  have hfl := faceLike C.type h.order h.dim g (List.mem_range.2 ho.hg)
  obtain ⟨q', hq', hbt, σ', hσ', e'⟩ := parts_reversed _ hfl σ hσ q (List.mem_range.2 ho.hq)
  rw [List.mem_range] at hq'
  obtain ⟨p', f', ho'⟩ := on_exists per h' hg' (q := q') (by rw [← hty]; exact hq')
  refine ⟨p', f', q', ho', ?_⟩
  have hT : faceType (bisectElem D.type p') f' = faceType (bisectElem C.type p) f := by
    rw [← ho'.type, ← hty, hbt, ho.type]
  have hft := childFace C.type h.order h.dim p (List.mem_range.2 ho.hp) f (List.mem_range.2 ho.hf)
  have G := rots_group _ hft
  obtain ⟨ρ, hρ, e1⟩ := ho.ways
  obtain ⟨ρ₁, hρ₁, e2⟩ := ho'.ways
  rw [hT] at hρ₁
  obtain ⟨ρ₂, hρ₂, e3⟩ := read_back hft (by rw [faceNodes_child_length h' ho'.hp ho'.hf, hT]) hρ₁ e2
  rw [ho.type] at hσ'
  have hpl := (ways_lengths _ hfl).2.2
  have k1 : nodesAt (faceNodes D g') (part (faceType D.type g') 0 q') =
      nodesAt (nodesAt (faceNodes (child per v C p) f) ρ) σ' := by
    rw [e, ← hty, nodesAt_comp, e', ← e1, nodesAt_comp]
    · intro k hk
      rw [(hpl q (List.mem_range.2 ho.hq)).1, ho.type]
      exact (G.2.2.2.2 σ' hσ').2 k hk
    · intro k hk
      rw [((ways_lengths _ hfl).2.1 σ hσ).1]
      exact (hpl q' (List.mem_range.2 hq')).2 k hk
  rw [nodesAt_comp _ _ _ (by intro k hk; rw [(G.2.2.2.1 ρ hρ).1]; exact (G.2.2.2.2 σ' hσ').2 k hk)] at k1
  have hs1 := (G.2.2.1 ρ hρ σ' hσ').1
  rw [k1, nodesAt_comp _ _ _ (by intro k hk; rw [(G.2.2.2.2 _ hs1).1]; exact (G.2.2.2.1 ρ₂ hρ₂).2 k hk)] at e3
  exact ⟨hT.symm, _, (G.2.2.1 ρ₂ hρ₂ _ hs1).2, e3⟩

/-- a face of a part that lies on a face that is a boundary element is a part of the boundary element, and conversely -/
theorem bnd_part (h : CellOk C v) {p f g q q' : Nat} {b : ElemType × List Int} (ho : On per v C p f g q) (hb : b.1 = faceType C.type g) {ρ : List Nat}
    (hρ : ρ ∈ rots b.1) (e : b.2 = nodesAt (faceNodes C g) ρ) (hq' : q' < (bisectNum b.1).toNat)
    (ht : bisectElem b.1 q' = bisectElem b.1 q) (hr : Reads (rots (bisectElem b.1 q)) (part b.1 0 q) ((part b.1 0 q').map (at_ ρ))) :
    IsFace (bisectElem b.1 q', nodesAt b.2 (part b.1 0 q')) (child per v C p) f := by
  have hfl := faceLike C.type h.order h.dim g (List.mem_range.2 ho.hg)
  rw [← hb] at hfl
  have hT : bisectElem b.1 q' = faceType (bisectElem C.type p) f := by rw [ht, hb, ho.type]
  have hft := childFace C.type h.order h.dim p (List.mem_range.2 ho.hp) f (List.mem_range.2 ho.hf)
  have G := rots_group _ hft
  obtain ⟨ρ₁, hρ₁, e1⟩ := hr
  obtain ⟨ρ₂, hρ₂, e2⟩ := ho.ways
  rw [← hb] at e2
  rw [← ht, hT] at hρ₁
  have hql : (part b.1 0 q).length = (numNodes (faceType (bisectElem C.type p) f)).toNat := by
    rw [((ways_lengths _ hfl).2.2 q (List.mem_range.2 (by rw [hb]; exact ho.hq))).1, ← ht, hT]
  refine ⟨hT, ρ₁.map (at_ ρ₂), ?_, ?_⟩
  · show _ ∈ rots (bisectElem b.1 q')
    rw [hT]; exact G.2.1 ρ₂ hρ₂ ρ₁ hρ₁
  · show nodesAt b.2 (part b.1 0 q') = _
    rw [e, nodesAt_comp, e1, ← nodesAt_comp, e2, nodesAt_comp]
    · intro k hk; rw [(G.2.2.2.1 ρ₂ hρ₂).1]; exact (G.2.2.2.1 ρ₁ hρ₁).2 k hk
    · intro k hk; rw [hql]; exact (G.2.2.2.1 ρ₁ hρ₁).2 k hk
    · intro k hk
      rw [((ways_lengths _ hfl).1 ρ hρ).1]
      exact ((ways_lengths _ hfl).2.2 q' (List.mem_range.2 hq')).2 k hk

end DNDSR.Bisect
