import Verif.Props.Bisect
import Verif.Props.ElevationDemo

/-!
# A triangle that is elevated and has no open face (C103)
-/

namespace DNDSR.Bisect.Tri

open DNDSR.IMap DNDSR.MeshAdj DNDSR.Faces DNDSR.Elev DNDSR.Ghost
open DNDSR.Elem hiding V3
open DNDSR.Per (V3 Periodicity)

def cell : Cell := ⟨.tri3, [0, 1, 2], []⟩
def parts : List Piece := [⟨[cell], [⟨1, [0, 1]⟩, ⟨1, [1, 2]⟩, ⟨2, [2, 0]⟩], 3⟩]

noncomputable def X (q : Int) : V3 := if q = 0 then ![0, 0, 0] else if q = 1 then ![2, 0, 0] else ![0, 2, 0]

theorem at0 {i : Nat} {C : Cell} (h : (whole parts)[i]? = some C) : i = 0 ∧ C = cell := by
  have hi : i < 1 := (List.getElem?_eq_some_iff.1 h).1
  have : i = 0 := by omega
  subst this
  exact ⟨rfl, (Option.some.inj h).symm⟩

theorem slot_at {i j : Nat} {s : Slot} (h : IsSlot false (whole parts) i j s) : i = 0 ∧ j < 3 ∧ s = slot false cell j := by
  obtain ⟨C, hC, hj, rfl⟩ := h
  obtain ⟨rfl, rfl⟩ := at0 hC
  exact ⟨rfl, hj, rfl⟩

theorem hasNode (c q : Int) : HasNode parts c q ↔ c = 0 ∧ q ∈ cell.nodes := by
  constructor
  · rintro ⟨C, ⟨h0, h1⟩, h2⟩
    obtain ⟨h, rfl⟩ := at0 h1
    exact ⟨by omega, h2⟩
  · rintro ⟨rfl, h⟩; exact ⟨cell, ⟨by decide, rfl⟩, h⟩

theorem bndOk (b : Bnd) (hb : b.nodes ≠ []) (h : ∀ q ∈ b.nodes, q ∈ cell.nodes) : BndOk false parts b (0, Faces.unInit) := by
  rw [BndOk, if_neg (by simp)]
  refine ⟨rfl, fun c => ⟨fun hc => ?_, fun hc q hq => (hasNode c q).2 ⟨hc, h q hq⟩⟩⟩
  obtain ⟨q, hq⟩ := List.exists_mem_of_ne_nil _ hb
  exact ((hasNode c q).1 (hc q hq)).1

theorem mesh_ok : MeshOk false parts := by
  refine ⟨?_, ?_, ?_, by unfold Global; decide +kernel, ?_⟩
  · intro C hC
    obtain ⟨i, hi⟩ := List.mem_iff_getElem?.1 hC
    obtain ⟨_, rfl⟩ := at0 hi
    exact ⟨⟨by decide, rfl, nofun, by decide⟩, by decide⟩
  · intro i j i' j' a b ha hb
    obtain ⟨_, h1, rfl⟩ := slot_at ha
    obtain ⟨_, h2, rfl⟩ := slot_at hb
    have h : ∀ j < 3, ∀ j' < 3, (slot false cell j).type = (slot false cell j').type → (corners (slot false cell j)).Perm (corners (slot false cell j')) →
      (slot false cell j).nodes.Perm (slot false cell j').nodes := by decide +kernel
    exact h j h1 j' h2
  · intro i1 j1 i2 j2 i3 j3 a b c ha hb hc s1 _
    obtain ⟨rfl, h1, rfl⟩ := slot_at ha
    obtain ⟨rfl, h2, rfl⟩ := slot_at hb
    have h : ∀ j < 3, ∀ j' < 3, (corners (slot false cell j)).Perm (corners (slot false cell j')) → j = j' := by decide +kernel
    exact Or.inl (by rw [h j1 h1 j2 h2 s1.2.1])
  · intro r p b hp hb
    have hr : r < 1 := (List.getElem?_eq_some_iff.1 hp).1
    have : r = 0 := by omega
    subst this
    cases hp
    have h : ∀ b ∈ ([⟨1, [0, 1]⟩, ⟨1, [1, 2]⟩, ⟨2, [2, 0]⟩] : List Bnd), b.nodes ≠ [] ∧ ∀ q ∈ b.nodes, q ∈ cell.nodes := by decide
    obtain ⟨h1, h2⟩ := h b hb
    exact ⟨_, bndOk b h1 h2, 0, 0, by decide +kernel, (hasNode 0 0).2 ⟨rfl, by decide⟩, (hasNode 0 0).2 ⟨rfl, by decide⟩⟩

theorem new_at {i k : Nat} {C : Cell} (h : IsNew parts i k C) : i = 0 ∧ k < 3 ∧ C = cell := by
  obtain ⟨h1, h2⟩ := h
  obtain ⟨rfl, rfl⟩ := at0 h1
  exact ⟨rfl, h2, rfl⟩

theorem point (P : Periodicity) {k : Nat} (h : k < 3) : nodePoint false P X cell k = if k = 0 then ![1, 0, 0] else if k = 1 then ![1, 1, 0] else ![0, 1, 0] := by
  have s : ∀ k < 3, span .tri3 k = if k = 0 then [0, 1] else if k = 1 then [1, 2] else [2, 0] := by decide +kernel
  have : k = 0 ∨ k = 1 ∨ k = 2 := by omega
  have hk := s k h
  rcases this with rfl | rfl | rfl
  · simp only [if_true] at hk ⊢
    simp only [nodePoint, middle, show cell.type = .tri3 from rfl, hk]
    ext i; fin_cases i <;> simp [seen, cell, X]
  · simp only [one_ne_zero, if_true, if_false] at hk ⊢
    simp only [nodePoint, middle, show cell.type = .tri3 from rfl, hk]
    ext i; fin_cases i <;> simp [seen, cell, X]
  · simp only [OfNat.ofNat_ne_zero, OfNat.ofNat_ne_one, if_false] at hk ⊢
    simp only [nodePoint, middle, show cell.type = .tri3 from rfl, hk]
    ext i; fin_cases i <;> simp [seen, cell, X]

theorem elevatable (P : Periodicity) : Elevatable false P parts X := by
  refine ⟨mesh_ok, by decide +kernel, ?_, nofun, ?_, ?_⟩
  · intro i k j C D hi hj _
    obtain ⟨rfl, hk, rfl⟩ := new_at hi
    obtain ⟨rfl, rfl⟩ := at0 hj
    exact ⟨k, hi, List.Perm.refl _⟩
  · intro i k k' C hi hi' hne
    obtain ⟨rfl, hk, rfl⟩ := new_at hi
    obtain ⟨_, hk', _⟩ := new_at hi'
    rw [point P hk, point P hk']
    have e : (10 : ℝ)⁻¹ ^ 20 ≤ 1 := by norm_num
    have e2 : (10 : ℝ)⁻¹ ^ 20 ≤ 1 + 1 := by norm_num
    have a : k = 0 ∨ k = 1 ∨ k = 2 := by omega
    have b : k' = 0 ∨ k' = 1 ∨ k' = 2 := by omega
    rw [← dist2_eq]
    rcases a with rfl | rfl | rfl <;> rcases b with rfl | rfl | rfl <;> first | exact absurd rfl hne | (simp [sqrDist]; norm_num)
  · intro r p b x hp hb hx
    have hr : r < 1 := (List.getElem?_eq_some_iff.1 hp).1
    have : r = 0 := by omega
    subst this
    cases hp
    simp only [List.mem_cons, List.not_mem_nil, or_false] at hb
    rcases hb with rfl | rfl | rfl
    · rw [bndOk_unique hx (bndOk _ (by decide) (by decide))]
      exact ⟨by decide +kernel, cell, 0, ⟨by decide, rfl⟩, by decide +kernel, by decide +kernel⟩
    · rw [bndOk_unique hx (bndOk _ (by decide) (by decide))]
      exact ⟨by decide +kernel, cell, 1, ⟨by decide, rfl⟩, by decide +kernel, by decide +kernel⟩
    · rw [bndOk_unique hx (bndOk _ (by decide) (by decide))]
      exact ⟨by decide +kernel, cell, 2, ⟨by decide, rfl⟩, by decide +kernel, by decide +kernel⟩

theorem closed : ClosedO1 parts := by
  intro i C f hi hf
  obtain ⟨rfl, rfl⟩ := at0 hi
  have hf : f < 3 := hf
  have only : ∀ b : Bnd, (∀ g < 3, (faceNodes cell g).Perm b.nodes → g = f) → ∀ (j : Nat) (D : Cell) (g : Nat),
      (whole parts)[j]? = some D → g < (numFaces D.type).toNat → (faceNodes D g).Perm b.nodes → j = 0 ∧ g = f := by
    intro b h j D g hj hg hp
    obtain ⟨rfl, rfl⟩ := at0 hj
    exact ⟨rfl, h g hg hp⟩
  have : f = 0 ∨ f = 1 ∨ f = 2 := by omega
  rcases this with rfl | rfl | rfl
  · exact Or.inr ⟨0, _, ⟨1, [0, 1]⟩, rfl, by decide, only _ (by decide +kernel)⟩
  · exact Or.inr ⟨0, _, ⟨1, [1, 2]⟩, rfl, by decide, only _ (by decide +kernel)⟩
  · exact Or.inr ⟨0, _, ⟨2, [2, 0]⟩, rfl, by decide, only _ (by decide +kernel)⟩

/-- the triangle is elevated and then has no open face -/
example (P : Periodicity) : ∃ xs outs, elevate false P xs = .ok outs ∧ Closed (whole (pieces outs)) (elevBnds outs) ∧ (elevBnds outs).length = 3 := by
  have s1 : Small (nodeLens parts) := by unfold Ghost.Small; decide +kernel
  have s2 : Small (cellLens parts) := by unfold Ghost.Small; decide +kernel
  obtain ⟨xs, hx⟩ := ranks_have false parts X mesh_ok s1 s2 (by decide +kernel)
  obtain ⟨outs, ν, N, h1, h2, _⟩ := elevation false P parts X xs (elevatable P) hx (by unfold Ghost.Small; decide +kernel)
  refine ⟨xs, outs, h1, (elevated_closed false P X parts outs ν N (elevatable P) h2 (by decide +kernel) closed).1, ?_⟩
  have hl := h2.ranks
  match outs, hl with
  | [o], _ =>
    have := h2.bndLen 0 _ o rfl rfl
    simpa [elevBnds] using this

end DNDSR.Bisect.Tri
