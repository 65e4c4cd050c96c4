import Verif.Proof.ShapeCheck

/-!
# What the checks of the shape function tables mean at every point
-/

namespace DNDSR.Shape

open DNDSR.Elem

variable {p : Fin 3 → ℝ}

theorem sumFr_sound : ∀ (l : List (Int × Ex)) {f : Fr}, sumFr l = some f → Fr.Ok p f →
    Fr.Rep p ((l.map fun x => (x.1 : ℝ) * x.2.eval p).sum) f := by
  intro l
  induction l with
  | nil =>
    intro f h _
    obtain rfl := Option.some.inj h
    simpa using Fr.rep_const (p := p) 0
  | cons x l ih =>
    obtain ⟨c, e⟩ := x
    intro f h hk
    cases he : Fr.norm e with
    | none => simp [sumFr, he] at h
    | some g =>
      cases hl : sumFr l with
      | none => simp [sumFr, he, hl] at h
      | some g' =>
        simp only [sumFr, he, hl, Option.some.injEq] at h
        subst h
        obtain ⟨h1, h2⟩ := Fr.ok_add hk
        have h1' : Fr.Ok p g := by
          rcases h1 with h | h
          · exact Or.inl h
          · rw [Fr.mul, Fr.mkF_eq] at h
            have h : 0 + g.k = 0 := h
            exact Or.inr (by omega)
        rw [List.map_cons, List.sum_cons]
        exact Fr.rep_add (Fr.rep_mul (Fr.rep_const c) (Fr.norm_sound e he h1').1) (ih hl h2)

theorem substFr_rep {a b c : Fr} {x y z : ℝ} (ha : Fr.Rep p x a) (hb : Fr.Rep p y b) (hc : Fr.Rep p z c) (n : P) :
    Fr.Rep p (P.ev x y z n) (P.substFr a b c n) := by
  induction n with
  | nil => simpa [P.ev, P.substFr] using Fr.rep_const (p := p) 0
  | cons m n ih =>
    exact Fr.rep_add (Fr.rep_mul (Fr.rep_const _) (Fr.rep_mul (Fr.rep_mul (Fr.rep_pow ha _) (Fr.rep_pow hb _)) (Fr.rep_pow hc _))) ih

theorem fine_ok {t : ElemType} {f : Fr} (h : fine t f = true) (hp : Pyramid t → p 2 ≠ 1) : Fr.Ok p f := by
  simp only [fine, isPyr, Bool.or_eq_true, beq_iff_eq] at h
  rcases h with h | h
  · exact Or.inl (sub_ne_zero.mpr (hp h))
  · exact Or.inr h

theorem entry_derivative {t : ElemType} {k r j : Nat} {l : List (Fin 3)} (h : entryCheck t k r j l = true) (hp : Pyramid t → p 2 ≠ 1) :
    (entry t k r j).eval p = Jet.pdL l (fun q => (entry t 0 0 j).eval q) p ∧ (entry t k r j).Defined p := by
  unfold entryCheck at h
  split at h
  · rename_i f g hf hg
    simp only [Bool.and_eq_true] at h
    obtain ⟨h1, h2, h3⟩ := h
    have of := fine_ok h2 hp
    have og := fine_ok h3 hp
    have ol : Fr.Ok p (Fr.diffL l f) := of.imp id fun h => (Fr.diffL_k l f).mpr h
    obtain ⟨r1, d1⟩ := Fr.norm_sound _ hg og
    have hd : (Fr.diffL l f).den ≠ 0 := by rw [Fr.diffL_den]; exact (Fr.norm_sound _ hf of).1.2
    refine ⟨?_, d1⟩
    rw [Fr.pdL_eval hf l of]
    exact (Fr.eq_sound h1 (Fr.val_rep hd ol) r1 ol og).symm
  · exact absurd h (by simp)

end DNDSR.Shape
