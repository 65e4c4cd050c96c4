import Verif.Spec.DofVec
import Verif.Proof.IndexMapping
import Mathlib.Data.List.Forall2
import Mathlib.Data.List.GetD

/-! # Vectors over the cells of all ranks: lemmas -/

namespace DNDSR.Dof

open DNDSR.IMap
open Matrix

variable {n m : Nat}

theorem forRanks_at {α β : Type} {f : Nat → α → Res β} {g : α → β} : ∀ (l : List α) (r : Nat), (∀ (i : Nat) (x : α), l[i]? = some x → f (r + i) x = .ok (g x)) →
    forRanks f r l = .ok (l.map g) := by
  intro l r h
  refine (forRanks_ok _ _ _ _).2 ⟨by simp, fun i x hx => ⟨g x, by rw [List.getElem?_map, hx]; rfl, h i x hx⟩⟩

theorem foldl_add (l : List ℝ) : ∀ a, l.foldl (· + ·) a = a + l.sum := by
  induction l with
  | nil => intro a; simp
  | cons x l ih => intro a; rw [List.foldl_cons, ih, List.sum_cons, add_assoc]

theorem foldl_zero (l : List ℝ) : l.foldl (· + ·) 0 = l.sum := by rw [foldl_add, zero_add]

theorem row_father (v : Part n) {i : Nat} {x : Row n} (h : v.father[i]? = some x) : v.row i = .ok x := by
  have hi : i < v.father.length := (List.getElem?_eq_some_iff.1 h).1
  rw [Part.row, if_pos hi, idx, h]

theorem row_son (v : Part n) {i : Nat} {x : Row n} (h : v.son[i]? = some x) : v.row (v.father.length + i) = .ok x := by
  rw [Part.row, if_neg (by omega), Nat.add_sub_cancel_left, idx, h]

theorem zip_loop {α : Type} (f : Row n → Row m → α) (R : Part m) (k : Nat) (l : List (Row n)) (l' : List (Row m)) (hl : l.length = l'.length)
    (h : ∀ (i : Nat) (y : Row m), l'[i]? = some y → R.row (k + i) = .ok y) :
    forRanks (fun i x => do
      let y ← R.row i
      .ok (f x y)) k l = .ok (List.zipWith f l l') := by
  refine (forRanks_ok _ _ _ _).2 ⟨by rw [List.length_zipWith]; omega, fun i x hx => ?_⟩
  have hi : i < l'.length := by rw [← hl]; exact (List.getElem?_eq_some_iff.1 hx).1
  have hy : l'[i]? = some l'[i] := List.getElem?_eq_getElem hi
  refine ⟨f x l'[i], ?_, ?_⟩
  · rw [List.getElem?_zipWith, hx, hy]
  · rw [h i _ hy, Res.ok_bind]

theorem both_eq (f : Row n → Row m → Row n) (v : Part n) (R : Part m) (h1 : v.father.length = R.father.length) (h2 : v.son.length = R.son.length) :
    Part.both f v R = .ok ⟨List.zipWith f v.father R.father, List.zipWith f v.son R.son⟩ := by
  unfold Part.both
  rw [zip_loop f R 0 v.father R.father h1 (fun i y hy => by rw [Nat.zero_add]; exact row_father R hy), Res.ok_bind,
    zip_loop f R v.father.length v.son R.son h2 (fun i y hy => by rw [h1]; exact row_son R hy), Res.ok_bind]

theorem copy_eq (v R : Part n) (h1 : v.father.length = R.father.length) (h2 : v.son.length = R.son.length) :
    Part.copy v R = .ok ⟨R.father, R.son⟩ := by
  unfold Part.copy
  rw [Res.assert_true _ h1.symm, Res.ok_bind, Res.assert_true _ h2.symm, Res.ok_bind]

theorem addTo_eq (v R : Part n) (r : ℝ) (h1 : v.father.length = R.father.length) (h2 : v.son.length = R.son.length) :
    Part.addTo v R r = .ok ⟨List.zipWith (fun u w => u + r • w) v.father R.father, List.zipWith (fun u w => u + r • w) v.son R.son⟩ := by
  unfold Part.addTo
  rw [Res.assert_true _ h1.symm, Res.ok_bind, Res.assert_true _ h2.symm, Res.ok_bind]
  rfl

theorem sumOwn_eq (f : Row n → Row n → ℝ) (v R : Part n) (h1 : v.father.length = R.father.length) :
    sumOwn f v R = .ok (List.zipWith f v.father R.father).sum := by
  unfold sumOwn
  rw [zip_loop f R 0 v.father R.father h1 (fun i y hy => by rw [Nat.zero_add]; exact row_father R hy), Res.ok_bind, foldl_zero]

/-- two vectors with the same layout -/
def Alike (v : List (Part n)) (w : List (Part m)) : Prop := List.Forall₂ (fun p q => p.father.length = q.father.length ∧ p.son.length = q.son.length) v w

theorem alike_of {L : Layout} {v : List (Part n)} {w : List (Part m)} (hv : Shape L v) (hw : Shape L w) : Alike v w := by
  unfold Shape at hv hw
  induction L generalizing v w with
  | nil =>
    cases hv
    cases hw
    exact List.Forall₂.nil
  | cons o L ih =>
    cases hv with
    | cons h hv =>
      cases hw with
      | cons h' hw => exact List.Forall₂.cons ⟨h.1.trans h'.1.symm, h.2.trans h'.2.symm⟩ (ih hv hw)

/-- rank by rank -/
def zipParts (f : Row n → Row m → Row n) (v : List (Part n)) (w : List (Part m)) : List (Part n) :=
  List.zipWith (fun p q => ⟨List.zipWith f p.father q.father, List.zipWith f p.son q.son⟩) v w

theorem ranks_zip {op : Part n → Part m → Res (Part n)} {f : Row n → Row m → Row n}
    (h : ∀ v R, v.father.length = R.father.length → v.son.length = R.son.length → op v R = .ok ⟨List.zipWith f v.father R.father, List.zipWith f v.son R.son⟩)
    {v : List (Part n)} {w : List (Part m)} (hvw : Alike v w) (k : Nat) :
    forRanks (fun _ (x : Part n × Part m) => op x.1 x.2) k (v.zip w) = .ok (zipParts f v w) := by
  unfold Alike at hvw
  induction hvw generalizing k with
  | nil => rfl
  | @cons p q v w hpq hvw ih =>
    rw [List.zip_cons_cons, forRanks, h p q hpq.1 hpq.2, Res.ok_bind, ih, Res.ok_bind]
    rfl

theorem glob_cons (p : Part n) (v : List (Part n)) : glob (p :: v) = p.father ++ glob v := by simp [glob]

theorem glob_zip (f : Row n → Row m → Row n) {v : List (Part n)} {w : List (Part m)} (hvw : Alike v w) : glob (zipParts f v w) = List.zipWith f (glob v) (glob w) := by
  unfold Alike at hvw
  induction hvw with
  | nil => rfl
  | @cons p q v w hpq hvw ih =>
    rw [glob_cons, glob_cons, List.zipWith_append hpq.1, ← ih]
    rfl

theorem shape_zip (f : Row n → Row m → Row n) {L : Layout} {v : List (Part n)} {w : List (Part m)} (hv : Shape L v) (hw : Shape L w) : Shape L (zipParts f v w) := by
  unfold Shape at *
  induction L generalizing v w with
  | nil =>
    cases hv
    exact List.Forall₂.nil
  | cons o L ih =>
    cases hv with
    | cons h hv =>
      cases hw with
      | cons h' hw =>
        refine List.Forall₂.cons ⟨?_, ?_⟩ (ih hv hw)
        · simp only [List.length_zipWith]; omega
        · simp only [List.length_zipWith]; omega

theorem zip_copies (f : Row n → Row m → Row n) (A : List (Row n)) (B : List (Row m)) : ∀ (gs : List Nat) (a : List (Row n)) (b : List (Row m)),
    a.map some = gs.map (fun g => A[g]?) → b.map some = gs.map (fun g => B[g]?) → (List.zipWith f a b).map some = gs.map fun g => (List.zipWith f A B)[g]?
  | [], a, b, ha, hb => by
    rw [List.map_nil, List.map_eq_nil_iff] at ha
    subst ha
    rfl
  | g :: gs, [], _, ha, _ => by simp at ha
  | g :: gs, _ :: _, [], _, hb => by simp at hb
  | g :: gs, x :: a, y :: b, ha, hb => by
    simp only [List.map_cons, List.cons.injEq] at ha hb
    rw [List.zipWith_cons_cons, List.map_cons, List.map_cons, zip_copies f A B gs a b ha.2 hb.2, List.getElem?_zipWith, ← ha.1, ← hb.1]

theorem fresh_zip (f : Row n → Row m → Row n) {L : Layout} {v : List (Part n)} {w : List (Part m)} (hv : Shape L v) (hw : Shape L w) (fv : Fresh L v) (fw : Fresh L w) :
    Fresh L (zipParts f v w) := by
  have e := glob_zip f (alike_of hv hw)
  unfold Fresh at *
  rw [e]
  generalize glob v = A at fv
  generalize glob w = B at fw
  clear e hv hw
  induction L generalizing v w with
  | nil =>
    cases fv
    exact List.Forall₂.nil
  | cons o L ih =>
    cases fv with
    | cons h fv =>
      cases fw with
      | cons h' fw => exact List.Forall₂.cons (zip_copies f A B o.2 _ _ h h') (ih fv fw)

theorem glob_each (f : Each n) (v : List (Part n)) : glob (v.map (Part.each f)) = (glob v).map f.body := by
  induction v with
  | nil => rfl
  | cons p v ih => rw [List.map_cons, glob_cons, glob_cons, List.map_append, ih]; rfl

theorem shape_each (f : Each n) {L : Layout} {v : List (Part n)} (hv : Shape L v) : Shape L (v.map (Part.each f)) := by
  unfold Shape at *
  rw [List.forall₂_map_left_iff]
  exact hv.imp fun p o h => ⟨by simp [Part.each, h.1], by simp [Part.each, h.2]⟩

theorem fresh_each (f : Each n) {L : Layout} {v : List (Part n)} (hv : Fresh L v) : Fresh L (v.map (Part.each f)) := by
  unfold Fresh at *
  rw [glob_each, List.forall₂_map_left_iff]
  refine hv.imp fun p o h => ?_
  have : (p.son.map f.body).map some = (p.son.map some).map (Option.map f.body) := by simp [Function.comp_def]
  show (p.son.map f.body).map some = _
  rw [this, h, List.map_map]
  exact List.map_congr_left fun g _ => by simp

/-! ## Pull -/

theorem glob_length {L : Layout} {v : List (Part n)} (hv : Shape L v) : (glob v).length = (L.map (·.1)).sum := by
  unfold Shape at hv
  induction hv with
  | nil => rfl
  | cons h _ ih => rw [glob_cons, List.length_append, ih, h.1, List.map_cons, List.sum_cons]

theorem pull_ok {L : Layout} (hL : L.Ok) {v : List (Part n)} (hv : Shape L v) :
    ∃ w, pull (L.map (·.2)) v = .ok w ∧ Shape L w ∧ glob w = glob v ∧ Fresh L w := by
  have hlen := glob_length hv
  have key : ∀ (L' : Layout) (u : List (Part n)) (k : Nat), (∀ o ∈ L', ∀ g ∈ o.2, g < (glob v).length) →
      List.Forall₂ (fun (p : Part n) o => p.father.length = o.1 ∧ p.son.length = o.2.length) u L' →
      ∃ w, forRanks (fun _ (x : Part n × List Nat) => do
        let so ← forRanks (fun _ g => idx (glob v) g) 0 x.2
        .ok (⟨x.1.father, so⟩ : Part n)) k (u.zip (L'.map (·.2))) = .ok w ∧
        List.Forall₂ (fun (p : Part n) o => p.father.length = o.1 ∧ p.son.length = o.2.length) w L' ∧ glob w = glob u ∧
        List.Forall₂ (fun (p : Part n) o => p.son.map some = o.2.map fun g => (glob v)[g]?) w L' := by
    intro L' u k hb hu
    induction hu generalizing k with
    | nil => exact ⟨[], rfl, List.Forall₂.nil, rfl, List.Forall₂.nil⟩
    | @cons p o u L' hp hu ih =>
      obtain ⟨w, e, h1, h2, h3⟩ := ih (k + 1) (fun o' ho' => hb o' (List.mem_cons_of_mem _ ho'))
      have hso : ∃ so, forRanks (fun _ g => idx (glob v) g) 0 o.2 = .ok so := by
        refine forRanks_total _ _ _ fun i g hg => ?_
        have := hb o (by simp) g (List.mem_of_getElem? hg)
        exact ⟨(glob v)[g], by rw [idx, List.getElem?_eq_getElem this]⟩
      obtain ⟨so, es⟩ := hso
      obtain ⟨l1, l2⟩ := (forRanks_ok _ _ _ _).1 es
      have hsome : so.map some = o.2.map fun g => (glob v)[g]? := by
        refine List.ext_getElem? fun i => ?_
        rw [List.getElem?_map, List.getElem?_map]
        cases hg : o.2[i]? with
        | none =>
          have : so[i]? = none := by rw [List.getElem?_eq_none_iff] at hg ⊢; omega
          rw [this]
          rfl
        | some g =>
          obtain ⟨y, hy, ey⟩ := l2 i g hg
          rw [hy, Option.map_some, Option.map_some]
          unfold idx at ey
          split at ey
          · rename_i x hx
            rw [hx, Res.ok.inj ey]
          · cases ey
      refine ⟨⟨p.father, so⟩ :: w, ?_, List.Forall₂.cons ⟨hp.1, l1⟩ h1, ?_, List.Forall₂.cons hsome h3⟩
      · rw [List.map_cons, List.zip_cons_cons, forRanks]
        simp only
        rw [es, Res.ok_bind, Res.ok_bind, e, Res.ok_bind]
      · rw [glob_cons, glob_cons, h2]
  obtain ⟨w, e, h1, h2, h3⟩ := key L v 0 (fun o ho g hg => by rw [hlen]; exact hL o ho g hg) hv
  refine ⟨w, e, h1, h2, ?_⟩
  unfold Fresh
  rw [h2]
  exact h3

/-! ## Reductions -/

theorem dot_eq (mL mR : Row n) {v w : List (Part n)} (hvw : Alike v w) :
    dot mL mR v w = .ok (List.zipWith (fun (a b : Row n) => ∑ c, (a c * mL c) * (b c * mR c)) (glob v) (glob w)).sum := by
  unfold dot
  have : ∀ k, forRanks (fun _ (x : Part n × Part n) => sumOwn (fun a b => (fun c => a c * mL c) ⬝ᵥ fun c => b c * mR c) x.1 x.2) k (v.zip w) =
      .ok (List.zipWith (fun p q => (List.zipWith (fun (a b : Row n) => ∑ c, (a c * mL c) * (b c * mR c)) p.father q.father).sum) v w) := by
    unfold Alike at hvw
    induction hvw with
    | nil => intro k; rfl
    | @cons p q v w hpq hvw ih =>
      intro k
      rw [List.zip_cons_cons, forRanks, sumOwn_eq _ _ _ hpq.1, Res.ok_bind, ih, Res.ok_bind]
      rfl
  rw [this, Res.ok_bind, allSum, foldl_zero]
  congr 1
  clear this
  unfold Alike at hvw
  induction hvw with
  | nil => rfl
  | @cons p q v w hpq hvw ih => rw [List.zipWith_cons_cons, List.sum_cons, ih, glob_cons, glob_cons, List.zipWith_append hpq.1, List.sum_append]

theorem sum_ranks (f : Row n → ℝ) (v : List (Part n)) : allSum (v.map fun p => (p.father.map f).foldl (· + ·) 0) = ((glob v).map f).sum := by
  rw [allSum, foldl_zero]
  induction v with
  | nil => rfl
  | cons p v ih => rw [List.map_cons, List.sum_cons, ih, foldl_zero, glob_cons, List.map_append, List.sum_append]

theorem norm2_eq (v : List (Part n)) : norm2 v = √((glob v).map fun u => ∑ c, u c ^ 2).sum := by
  unfold norm2
  rw [sum_ranks]
  simp only [dotProduct, pow_two]

theorem norm1_eq (v : List (Part n)) (c : Fin n) : norm1 v c = ((glob v).map fun u => |u c|).sum := sum_ranks _ v

theorem foldl_min (l : List ℝ) : ∀ a, l.foldl min a = min a (l.foldr min veryLarge) ∨ veryLarge < l.foldl min a ∧ veryLarge < a ∧ ∀ x ∈ l, veryLarge < x := by
  induction l with
  | nil =>
    intro a
    by_cases h : a ≤ veryLarge
    · exact Or.inl (by simp [h])
    · exact Or.inr ⟨by simpa using h, not_le.mp h, by simp⟩
  | cons x l ih =>
    intro a
    rw [List.foldl_cons, List.foldr_cons, ← min_assoc]
    rcases ih (min a x) with h | ⟨h1, h2, h3⟩
    · exact Or.inl h
    · exact Or.inr ⟨h1, (lt_min_iff.1 h2).1, fun y hy => by
        rcases List.mem_cons.1 hy with rfl | hy
        · exact (lt_min_iff.1 h2).2
        · exact h3 y hy⟩

theorem foldl_min_large (l : List ℝ) : ∀ a ≤ veryLarge, l.foldl min a = min a (l.foldr min veryLarge) := by
  intro a ha
  rcases foldl_min l a with h | ⟨-, h, -⟩
  · exact h
  · exact absurd ha (not_le.mpr h)

theorem foldr_min_append (l l' : List ℝ) : (l ++ l').foldr min veryLarge = min (l.foldr min veryLarge) (l'.foldr min veryLarge) := by
  induction l with
  | nil =>
    have : ∀ l : List ℝ, l.foldr min veryLarge ≤ veryLarge := by
      intro l
      induction l with
      | nil => exact le_rfl
      | cons x l ih => exact (min_le_right _ _).trans ih
    simp [this l']
  | cons x l ih => rw [List.cons_append, List.foldr_cons, ih, List.foldr_cons, min_assoc]

theorem minimum_eq (v : List (Part n)) (c : Fin n) : minimum v c = ((glob v).map fun u => u c).foldr min veryLarge := by
  have hle : ∀ l : List ℝ, l.foldr min veryLarge ≤ veryLarge := by
    intro l
    induction l with
    | nil => exact le_rfl
    | cons x l ih => exact (min_le_right _ _).trans ih
  have e : ∀ p : Part n, (p.father.map fun x => x c).foldl min veryLarge = (p.father.map fun x => x c).foldr min veryLarge := by
    intro p
    rw [foldl_min_large _ _ le_rfl, min_eq_right (hle _)]
  have all : ∀ v : List (Part n), (v.map fun p => (p.father.map fun x => x c).foldr min veryLarge).foldr min veryLarge = ((glob v).map fun u => u c).foldr min veryLarge := by
    intro v
    induction v with
    | nil => rfl
    | cons p v ih => rw [List.map_cons, List.foldr_cons, ih, glob_cons, List.map_append, foldr_min_append]
  unfold minimum
  simp only [e]
  cases v with
  | nil => rfl
  | cons p v =>
    rw [List.map_cons, allMin, foldl_min_large _ _ (hle _), all v, glob_cons, List.map_append, foldr_min_append]

end DNDSR.Dof
