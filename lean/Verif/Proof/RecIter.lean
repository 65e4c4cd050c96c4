import Verif.Spec.RecIter
import Verif.Proof.SweepsAll
import Mathlib.Algebra.BigOperators.Fin
import Mathlib.Tactic.Abel

/-! Helper lemmas for `Verif.Props.RecIter`: one rank. -/

namespace DNDSR.RecIt

open DNDSR.Elem DNDSR.IMap DNDSR.MeshAdj DNDSR.Faces
open DNDSR.Flux (nSides at64_ok firstSide isSlot_of lt_of_isSlot nSides_eq)
open DNDSR.Sweep (Mates loc loc_eq mate_is mate_ne row_of own_index own_of_lt nOwn_le is_own_add own_lt mate_place order order_nodup mem_order split_order Seen)
open Matrix

variable {N V : Nat} {K : Type} [Field K]

/-! ## Loops -/

/-- the values after the faces `k`, `k + 1`, … -/
def runFrom (stp : Nat → Matrix (Fin N) (Fin V) K → Matrix (Fin N) (Fin V) K) : Nat → Nat → Matrix (Fin N) (Fin V) K → Matrix (Fin N) (Fin V) K
  | _, 0, a => a
  | k, n + 1, a => runFrom stp (k + 1) n (stp k a)

theorem runFrom_succ (stp : Nat → Matrix (Fin N) (Fin V) K → Matrix (Fin N) (Fin V) K) : ∀ n k a, runFrom stp k (n + 1) a = stp (k + n) (runFrom stp k n a)
  | 0, _, _ => rfl
  | n + 1, k, a => by
      show runFrom stp (k + 1) (n + 1) (stp k a) = _
      rw [runFrom_succ stp n (k + 1) (stp k a), show k + 1 + n = k + (n + 1) by omega]
      rfl

theorem runFrom_grow (t : Nat → Matrix (Fin N) (Fin V) K → Matrix (Fin N) (Fin V) K) (n : Nat) (a : Matrix (Fin N) (Fin V) K) :
    runFrom (fun j a => a + t j a) 0 n a = grow t n a := by
  induction n with
  | zero => rfl
  | succ n ih => rw [runFrom_succ, ih, Nat.zero_add]; rfl

theorem grow_const (t : Nat → Matrix (Fin N) (Fin V) K) (n : Nat) (a : Matrix (Fin N) (Fin V) K) :
    grow (fun j _ => t j) n a = a + ∑ j ∈ Finset.range n, t j := by
  induction n with
  | zero => simp [grow]
  | succ n ih => rw [grow, ih, Finset.sum_range_succ, add_assoc]

theorem grow_congr {t t' : Nat → Matrix (Fin N) (Fin V) K → Matrix (Fin N) (Fin V) K} {n : Nat} (h : ∀ j < n, ∀ a, t j a = t' j a) (a : Matrix (Fin N) (Fin V) K) :
    grow t n a = grow t' n a := by
  induction n with
  | zero => rfl
  | succ n ih => rw [grow, grow, ih (fun j hj => h j (by omega)), h n (by omega)]

theorem faceLoop_spec (S : Sys N V K) (iCell : Nat) (inner : Nat → Int → Bool → Int → Matrix (Fin N) (Fin V) K → Res (Matrix (Fin N) (Fin V) K))
    (bnd : Int → Matrix (Fin N) (Fin V) K → Res (Matrix (Fin N) (Fin V) K)) (stp : Nat → Matrix (Fin N) (Fin V) K → Matrix (Fin N) (Fin V) K) :
    ∀ (row : List Int) (k : Nat) (acc : Matrix (Fin N) (Fin V) K), (∀ (j : Nat) (e : Int), row[j]? = some e → ∃ f z, at64 S.faces e = .ok f ∧ at64 S.zone e = .ok z ∧
      ∀ a, ((if f.first = iCell then f.second else f.first) ≠ unInit →
          inner (k + j) (if f.first = iCell then f.second else f.first) (if f.first = iCell then false else true) z a = .ok (stp (k + j) a)) ∧
        ((if f.first = iCell then f.second else f.first) = unInit → bnd e a = .ok (stp (k + j) a))) →
    faceLoop S iCell inner bnd k row acc = .ok (runFrom stp k row.length acc)
  | [], _, _, _ => rfl
  | e :: es, k, acc, h => by
      obtain ⟨f, z, h1, h2, h3⟩ := h 0 e rfl
      rw [Nat.add_zero] at h3
      have ih := fun a => faceLoop_spec S iCell inner bnd stp es (k + 1) a fun j e' he' => by
        obtain ⟨f', z', h1', h2', h3'⟩ := h (j + 1) e' he'
        rw [show k + (j + 1) = k + 1 + j by omega] at h3'
        exact ⟨f', z', h1', h2', h3'⟩
      simp only [faceLoop, h1, h2, Res.ok_bind]
      by_cases ho : (if f.first = iCell then f.second else f.first) ≠ unInit
      · rw [if_pos ho, (h3 acc).1 ho, Res.ok_bind, ih]
        rfl
      · rw [if_neg ho, (h3 acc).2 (not_not.1 ho), Res.ok_bind, ih]
        rfl

theorem sweep_spec (body : Nat → List (Matrix (Fin N) (Fin V) K) → Res (Matrix (Fin N) (Fin V) K))
    (val : Nat → (Nat → Matrix (Fin N) (Fin V) K) → Matrix (Fin N) (Fin V) K) (len : Nat) :
    ∀ (cells : List Nat) (u : List (Matrix (Fin N) (Fin V) K)), u.length = len → cells.Nodup → (∀ l ∈ cells, l < len) →
    (∀ l ∈ cells, ∀ w : List (Matrix (Fin N) (Fin V) K), w.length = len → body l w = .ok (val l fun o => w.getD o 0)) →
    ∃ u', sweep body cells u = .ok u' ∧ u'.length = len ∧ (∀ o, o ∉ cells → u'.getD o 0 = u.getD o 0) ∧
      ∀ (pre : List Nat) (l : Nat) (post : List Nat), cells = pre ++ l :: post →
        u'.getD l 0 = val l fun o => if o ∈ pre then u'.getD o 0 else u.getD o 0 := by
  intro cells
  induction cells with
  | nil =>
      intro u hu _ _ _
      refine ⟨u, rfl, hu, fun _ _ => rfl, ?_⟩
      intro pre l post h
      simp at h
  | cons c cs ih =>
      intro u hu hnd hlt hb
      have hc := hlt c (List.mem_cons_self ..)
      obtain ⟨hcn, hnd'⟩ := List.nodup_cons.1 hnd
      have hnew := hb c (List.mem_cons_self ..) u hu
      have hset : ∀ o, (u.set c (val c fun o => u.getD o 0)).getD o 0 = if o = c then val c (fun o => u.getD o 0) else u.getD o 0 := by
        intro o
        by_cases ho : o = c
        · subst ho
          rw [if_pos rfl, List.getD_eq_getElem?_getD, List.getElem?_set_self (by omega)]; rfl
        · rw [if_neg ho, List.getD_eq_getElem?_getD, List.getElem?_set_ne (fun h => ho h.symm), ← List.getD_eq_getElem?_getD]
      obtain ⟨u', h1, h2, h3, h4⟩ := ih (u.set c (val c fun o => u.getD o 0))
        (by simpa using hu) hnd' (fun l hl => hlt l (List.mem_cons_of_mem _ hl)) (fun l hl => hb l (List.mem_cons_of_mem _ hl))
      have hc' : u'.getD c 0 = val c fun o => u.getD o 0 := by rw [h3 c hcn, hset, if_pos rfl]
      refine ⟨u', ?_, h2, ?_, ?_⟩
      · simp only [sweep, hnew, Res.ok_bind]
        exact h1
      · intro o ho
        rw [List.mem_cons, not_or] at ho
        rw [h3 o ho.2, hset, if_neg ho.1]
      · intro pre l post hsplit
        cases pre with
        | nil =>
            rw [List.nil_append, List.cons.injEq] at hsplit
            obtain ⟨rfl, rfl⟩ := hsplit
            rw [hc']
            simp
        | cons p pre =>
            rw [List.cons_append, List.cons.injEq] at hsplit
            obtain ⟨rfl, rfl⟩ := hsplit
            rw [h4 pre l post rfl]
            congr 1
            funext o
            by_cases hoc : o = c
            · subst hoc
              have : o ∉ pre := fun h => hcn (List.mem_append_left _ h)
              rw [if_neg this, hset, if_pos rfl, if_pos (List.mem_cons_self ..), hc']
            · by_cases hop : o ∈ pre
              · rw [if_pos hop, if_pos (List.mem_cons_of_mem _ hop)]
              · rw [if_neg hop, if_neg (by rw [List.mem_cons, not_or]; exact ⟨hoc, hop⟩), hset, if_neg hoc]

/-- what a loop that writes one entry per cell does, if it reads nothing it writes -/
theorem sweep_map (body : Nat → Res (Matrix (Fin N) (Fin V) K)) (val : Nat → Matrix (Fin N) (Fin V) K) (n : Nat)
    (u : List (Matrix (Fin N) (Fin V) K)) (hn : n ≤ u.length) (hb : ∀ l < n, body l = .ok (val l)) :
    ∃ u', sweep (fun l _ => body l) (List.range n) u = .ok u' ∧ u'.length = u.length ∧ (∀ o, n ≤ o → u'.getD o 0 = u.getD o 0) ∧
      ∀ l < n, u'.getD l 0 = val l := by
  obtain ⟨u', h1, h2, h3, h4⟩ := sweep_spec (fun l _ => body l) (fun l _ => val l) u.length (List.range n) u rfl List.nodup_range
    (fun l hl => by have := List.mem_range.1 hl; omega) (fun l hl w _ => hb l (List.mem_range.1 hl))
  refine ⟨u', h1, h2, fun o ho => h3 o (by simp; omega), ?_⟩
  intro l hl
  obtain ⟨pre, post, hsp, _⟩ := split_order true n l hl
  exact h4 pre l post hsp

/-! ## Turned states -/

theorem isDonor_iff (z : Int) : Per.isDonor z = decide (z = -4 ∨ z = -5 ∨ z = -6) := by
  unfold Per.isDonor
  rw [Bool.eq_iff_iff]
  simp [or_assoc]

theorem isMain_iff (z : Int) : Rec.isMain z = decide (z = -1 ∨ z = -2 ∨ z = -3) := by
  unfold Rec.isMain
  rw [Bool.eq_iff_iff]
  simp [or_assoc]

theorem transOther_spec (P : Prob N V K) (hg : P.per = true → P.T.given = true) (i j : Nat) (w : Fin V → K) :
    transOther P.T P.per (!firstSide P.E P.F i j) (P.zone (P.F i j)) w = .ok (P.carry i j w) := by
  unfold transOther Prob.carry
  simp only [isMain_iff, isDonor_iff]
  generalize P.zone (P.F i j) = z
  generalize firstSide P.E P.F i j = q
  have hgi := hg
  revert hgi
  generalize P.per = p
  intro hgi
  cases p with
  | false => rfl
  | true =>
      simp only [if_true, Res.assert_true _ (hgi rfl), Res.ok_bind, Bool.true_eq_false, if_false]
      by_cases h1 : z = -1 ∨ z = -2 ∨ z = -3
      · have h2 : ¬ (z = -4 ∨ z = -5 ∨ z = -6) := by omega
        cases q <;> simp only [h1, h2, decide_true, decide_false, Bool.not_true, Bool.not_false, Bool.true_and, Bool.false_and, Bool.and_true, Bool.and_false,
          Bool.or_false, Bool.or_true, if_true, if_false, Bool.false_eq_true]
      · by_cases h2 : z = -4 ∨ z = -5 ∨ z = -6
        · cases q <;> simp only [h1, h2, decide_true, decide_false, Bool.not_true, Bool.not_false, Bool.true_and, Bool.false_and, Bool.and_true, Bool.and_false,
            Bool.or_false, Bool.or_true, if_true, if_false, Bool.false_eq_true]
        · cases q <;> simp only [h1, h2, decide_true, decide_false, Bool.not_true, Bool.not_false, Bool.true_and, Bool.false_and, Bool.and_true, Bool.and_false,
            Bool.or_false, Bool.or_true, if_true, if_false, Bool.false_eq_true]

theorem eachRow_spec (f : (Fin V → K) → Res (Fin V → K)) (g : (Fin V → K) → Fin V → K) (h : ∀ w, f w = .ok (g w)) (M : Matrix (Fin N) (Fin V) K) :
    eachRow f M = .ok fun k => g (M k) := by
  unfold eachRow
  obtain ⟨rows, h1, h2, h3⟩ := N2C.forRanks_all (fun _ k => f (M k)) (fun _ k v => v = g (M k)) (List.finRange N) (fun _ k _ => ⟨_, h _, rfl⟩)
  rw [h1, Res.ok_bind]
  congr 1
  funext k
  have hk : (k : Nat) < rows.length := by rw [h2, List.length_finRange]; exact k.2
  rw [List.getD_eq_getElem _ _ hk]
  exact h3 k k _ (by rw [List.getElem?_eq_getElem (by rw [List.length_finRange]; exact k.2)]; simp) (List.getElem?_eq_getElem hk)

end DNDSR.RecIt
