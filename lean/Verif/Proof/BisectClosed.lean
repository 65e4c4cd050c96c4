import Verif.Proof.BisectMeet

/-!
# The parts of a closed mesh form a closed mesh
-/

namespace DNDSR.Bisect

open DNDSR.Faces
open DNDSR.Elem hiding V3

/-- where entry `p` of list `i` is in the flattened list -/
def spot {α : Type} (L : List (List α)) (i p : Nat) : Nat := (L.take i).flatten.length + p

theorem flat_get {α : Type} (L : List (List α)) {i p : Nat} {l : List α} {x : α} (hi : L[i]? = some l) (hp : l[p]? = some x) :
    L.flatten[spot L i p]? = some x := by
  induction L generalizing i with
  | nil => simp at hi
  | cons a L ih =>
    cases i with
    | zero =>
      simp only [List.getElem?_cons_zero, Option.some.injEq] at hi
      subst hi
      have := (List.getElem?_eq_some_iff.1 hp).1
      simp [spot, List.getElem?_append_left this, hp]
    | succ i =>
      have := ih (i := i) (by simpa using hi)
      rw [spot] at this ⊢
      rw [List.take_succ_cons, List.flatten_cons, List.flatten_cons, List.length_append, Nat.add_assoc,
        List.getElem?_append_right (by omega), Nat.add_sub_cancel_left, this]

theorem flat_find {α : Type} (L : List (List α)) {n : Nat} {x : α} (h : L.flatten[n]? = some x) :
    ∃ i p l, L[i]? = some l ∧ l[p]? = some x ∧ n = spot L i p := by
  induction L generalizing n with
  | nil => simp at h
  | cons a L ih =>
    rw [List.flatten_cons] at h
    by_cases hn : n < a.length
    · rw [List.getElem?_append_left hn] at h
      exact ⟨0, n, a, rfl, h, by simp [spot]⟩
    · rw [List.getElem?_append_right (by omega)] at h
      obtain ⟨i, p, l, h1, h2, h3⟩ := ih h
      refine ⟨i + 1, p, l, by simpa using h1, h2, ?_⟩
      rw [spot] at h3 ⊢
      rw [List.take_succ_cons, List.flatten_cons, List.length_append]
      omega

theorem spot_inj {α : Type} (L : List (List α)) {i j p q : Nat} {l m : List α} (hi : L[i]? = some l) (hj : L[j]? = some m)
    (hp : p < l.length) (hq : q < m.length) (h : spot L i p = spot L j q) : i = j ∧ p = q := by
  induction L generalizing i j with
  | nil => simp at hi
  | cons a L ih =>
    cases i with
    | zero =>
      simp only [List.getElem?_cons_zero, Option.some.injEq] at hi
      subst hi
      cases j with
      | zero => simp [spot] at h; exact ⟨rfl, h⟩
      | succ j => simp only [spot, List.take_zero, List.flatten_nil, List.length_nil, List.take_succ_cons, List.flatten_cons, List.length_append] at h; omega
    | succ i =>
      cases j with
      | zero =>
        simp only [List.getElem?_cons_zero, Option.some.injEq] at hj
        subst hj
        simp only [spot, List.take_zero, List.flatten_nil, List.length_nil, List.take_succ_cons, List.flatten_cons, List.length_append] at h; omega
      | succ j =>
        have := ih (i := i) (j := j) (by simpa using hi) (by simpa using hj) (by
          simp only [spot, List.take_succ_cons, List.flatten_cons, List.length_append] at h ⊢; omega)
        exact ⟨by omega, this.2⟩

/-- the parts of a cell and of a boundary element -/
def kids (per : Bool) (c : Cell × Nat) : List Cell := (List.range (bisectNum c.1.type).toNat).map (child per c.2 c.1)
def kidsB (b : ElemType × List Int) : List (ElemType × List Int) :=
  (List.range (bisectNum b.1).toNat).map (fun i : Nat => (bisectElem b.1 i, nodesAt b.2 (part b.1 0 i)))

theorem kids_get (per : Bool) (C : Cell) (v p : Nat) (h : p < (bisectNum C.type).toNat) : (kids per (C, v))[p]? = some (child per v C p) := by
  simp [kids, h]

theorem kids_find {per : Bool} {C : Cell} {v p : Nat} {E : Cell} (h : (kids per (C, v))[p]? = some E) :
    p < (bisectNum C.type).toNat ∧ E = child per v C p := by
  have hp : p < (bisectNum C.type).toNat := by
    have := (List.getElem?_eq_some_iff.1 h).1
    simpa [kids] using this
  rw [kids_get _ _ _ _ hp] at h
  exact ⟨hp, by cases h; rfl⟩

theorem closed_children (per : Bool) {cells : List Cell} {V : List Nat} {bnds : List (ElemType × List Int)} (hc : Closed cells bnds)
    (hV : V.length = cells.length) (hok : ∀ (i : Nat) (C : Cell) (v : Nat), cells[i]? = some C → V[i]? = some v → CellOk C v) :
    Closed (((cells.zip V).map (kids per)).flatten) ((bnds.map kidsB).flatten) := by
  have hz : ∀ (i : Nat) (C : Cell), cells[i]? = some C → ∃ v, V[i]? = some v ∧ CellOk C v ∧
      ((cells.zip V).map (kids per))[i]? = some (kids per (C, v)) := by
    intro i C hi
    have hil : i < V.length := by rw [hV]; exact (List.getElem?_eq_some_iff.1 hi).1
    refine ⟨V[i], List.getElem?_eq_getElem hil, hok i C _ hi (List.getElem?_eq_getElem hil), ?_⟩
    rw [List.getElem?_map, show (cells.zip V)[i]? = some (C, V[i]) from List.getElem?_zip_eq_some.2 ⟨hi, List.getElem?_eq_getElem hil⟩]
    rfl
  have hback : ∀ (i : Nat) (l : List Cell), ((cells.zip V).map (kids per))[i]? = some l → ∃ C v, cells[i]? = some C ∧ V[i]? = some v ∧
      CellOk C v ∧ l = kids per (C, v) := by
    intro i l hl
    rw [List.getElem?_map] at hl
    obtain ⟨⟨C, v⟩, h1, rfl⟩ := Option.map_eq_some_iff.1 hl
    obtain ⟨h2, h3⟩ := List.getElem?_zip_eq_some.1 h1
    exact ⟨C, v, h2, h3, hok i C v h2 h3, rfl⟩
  constructor
  · intro n E f hn hf
    obtain ⟨i, p, l, h1, h2, rfl⟩ := flat_find _ hn
    obtain ⟨C, v, hC, hv, ho, rfl⟩ := hback i l h1
    obtain ⟨hp, rfl⟩ := kids_find h2
    have hf' : f < (numFaces (bisectElem C.type p)).toNat := hf
    rcases side_cases per ho hp hf' with ⟨p', f', hp', hff, hne, hm⟩ | ⟨g, q, hon⟩
    · refine Or.inl ⟨_, _, f', flat_get _ h1 (kids_get per C v p' hp'), hff, ?_, hm⟩
      intro e
      obtain ⟨e1, e2⟩ := Prod.mk.injEq _ _ _ _ ▸ e
      have := spot_inj _ h1 h1 (by simpa [kids] using hp') (by simpa [kids] using hp) e1
      exact hne (by rw [this.2, e2])
    · rcases hc.faces i C g hC hon.hg with ⟨j, D, g', hD, hg', hne, hm⟩ | ⟨b, hb, hbt, ρ, hρ, e⟩
      · obtain ⟨w, hw, ho', hz'⟩ := hz j D hD
        obtain ⟨p', f', q', hon', hm'⟩ := across ho ho' hon hg' hm
        refine Or.inl ⟨_, _, f', flat_get _ hz' (kids_get per D w p' hon'.hp), hon'.hf, ?_, hm'⟩
        intro e
        obtain ⟨e1, e2⟩ := Prod.mk.injEq _ _ _ _ ▸ e
        have hs := spot_inj _ hz' h1 (by simpa [kids] using hon'.hp) (by simpa [kids] using hp) e1
        obtain ⟨rfl, rfl⟩ := hs
        rw [hC] at hD; cases hD
        rw [hv] at hw; cases hw
        subst e2
        exact hne (by rw [on_unique ho hon' hon])
      · have hfl := faceLike C.type ho.order ho.dim g (List.mem_range.2 hon.hg)
        rw [← hbt] at hfl
        obtain ⟨q', hq', ht, hr⟩ := parts_turned _ hfl ρ hρ q (List.mem_range.2 (by rw [hbt]; exact hon.hq))
        refine Or.inr ⟨(bisectElem b.1 q', nodesAt b.2 (part b.1 0 q')), ?_, bnd_part ho hon hbt hρ e (List.mem_range.1 hq') ht hr⟩
        exact List.mem_flatten.2 ⟨_, List.mem_map_of_mem hb, List.mem_map.2 ⟨q', hq', rfl⟩⟩
  · intro b hb
    obtain ⟨l, hl, hbl⟩ := List.mem_flatten.1 hb
    obtain ⟨b₀, hb₀, rfl⟩ := List.mem_map.1 hl
    obtain ⟨q', hq', rfl⟩ := List.mem_map.1 hbl
    obtain ⟨i, C, g, hC, hg, hbt, ρ, hρ, e⟩ := hc.bnds b₀ hb₀
    obtain ⟨v, hv, ho, hz'⟩ := hz i C hC
    have hfl := faceLike C.type ho.order ho.dim g (List.mem_range.2 hg)
    rw [← hbt] at hfl
    obtain ⟨q, hq, ht, hr⟩ := parts_turned' _ hfl ρ hρ q' hq'
    obtain ⟨p, f, hon⟩ := on_exists per ho hg (q := q) (by rw [← hbt]; exact List.mem_range.1 hq)
    exact ⟨_, _, f, flat_get _ hz' (kids_get per C v p hon.hp), hon.hf, bnd_part ho hon hbt hρ e (List.mem_range.1 hq') ht hr⟩

end DNDSR.Bisect
