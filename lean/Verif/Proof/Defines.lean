import Verif.Spec.Defines

/-! Helper lemmas for `Verif.Props.Defines`. -/

namespace DNDSR.Defines

theorem filterMap_congr' {α β : Type} {f g : α → Option β} : ∀ {l : List α}, (∀ x ∈ l, f x = g x) →
    l.filterMap f = l.filterMap g := by
  intro l
  induction l with
  | nil => intro _; rfl
  | cons a l ih =>
    intro h
    rw [List.filterMap_cons, List.filterMap_cons, h a (by simp), ih (fun x hx => h x (by simp [hx]))]

theorem willAddOverflow_eq (w : Nat) (v inc : Int) (hv : Fits w v) (hi : Fits w inc) :
    signedIntWillAddOverflow w v inc = .ok (decide (¬ Fits w (v + inc))) := by
  have hmm : intMin w = -1 - intMax w := by unfold intMin intMax; omega
  unfold signedIntWillAddOverflow cSub Fits at *
  by_cases h1 : inc > 0
  · have h2 : ¬ inc < 0 := by omega
    have h3 : intMin w ≤ intMax w - inc ∧ intMax w - inc ≤ intMax w := by omega
    simp only [h1, if_true, h3, and_self, Res.ok_bind, Res.pure_eq, h2, if_false]
    by_cases h4 : v > intMax w - inc
    · simp only [h4, decide_true, if_true]; congr 1; symm; simp; omega
    · simp only [h4, decide_false]; simp; omega
  · by_cases h2 : inc < 0
    · have h3 : intMin w ≤ intMin w - inc ∧ intMin w - inc ≤ intMax w := by omega
      simp only [h1, h2, if_true, h3, and_self, Res.ok_bind, Res.pure_eq, if_false]
      by_cases h4 : v < intMin w - inc
      · simp [h4]; omega
      · simp [h4]; omega
    · simp [h1, h2]; omega

/-- For representable operands the checked addition returns the mathematical sum when that is
representable, and otherwise aborts; it never overflows silently and is never undefined. -/
theorem safeAdd_eq (w : Nat) (v inc : Int) (hv : Fits w v) (hi : Fits w inc) :
    signedIntSafeAdd w v inc = if Fits w (v + inc) then .ok (v + inc) else .abort := by
  unfold signedIntSafeAdd
  rw [willAddOverflow_eq w v inc hv hi]
  by_cases h : Fits w (v + inc) <;> simp [h, cAdd]

theorem accumulateGo_ok (w : Nat) : ∀ (l : List Int) (prev : Int) (out : List Int), Fits w prev →
    (∀ r ∈ l, Fits w r) → accumulateGo w prev l = .ok out →
    out.length = l.length ∧ ∀ i (_ : i < l.length),
      (out[i]? = some (prev + (l.take (i + 1)).sum)) ∧ Fits w (prev + (l.take (i + 1)).sum) := by
  intro l
  induction l with
  | nil => intro prev out _ _ h; simp [accumulateGo] at h; subst h; simp
  | cons r rs ih =>
    intro prev out hp hl h
    simp only [accumulateGo, Res.bind_ok_iff, Res.pure_eq, Res.ok.injEq] at h
    obtain ⟨s, hs, rest, hrest, rfl⟩ := h
    rw [safeAdd_eq w prev r hp (hl r (by simp))] at hs
    by_cases hf : Fits w (prev + r)
    · simp only [hf, if_true, Res.ok.injEq] at hs
      subst hs
      obtain ⟨hlen, hget⟩ := ih (prev + r) rest hf (fun x hx => hl x (by simp [hx])) hrest
      refine ⟨by simp [hlen], ?_⟩
      intro i hi
      cases i with
      | zero => simpa using hf
      | succ i =>
        have := hget i (by simpa using hi)
        simpa [Int.add_assoc] using this
    · simp [hf] at hs

theorem accumulateGo_total (w : Nat) : ∀ (l : List Int) (prev : Int), Fits w prev →
    (∀ r ∈ l, Fits w r) → (∀ i, i ≤ l.length → Fits w (prev + (l.take i).sum)) →
    ∃ out, accumulateGo w prev l = .ok out := by
  intro l
  induction l with
  | nil => intro prev _ _ _; exact ⟨[], rfl⟩
  | cons r rs ih =>
    intro prev hp hl hs
    have h1 : Fits w (prev + r) := by simpa using hs 1 (by simp)
    obtain ⟨out, hout⟩ := ih (prev + r) h1 (fun x hx => hl x (by simp [hx])) (by
      intro i hi
      have := hs (i + 1) (by simpa using hi)
      simpa [Int.add_assoc] using this)
    refine ⟨(prev + r) :: out, ?_⟩
    simp [accumulateGo, safeAdd_eq w prev r hp (hl r (by simp)), h1, hout]

theorem fits_zero (w : Nat) : Fits w 0 := by
  have h : 0 < (2 : Int) ^ (w - 1) := Int.pow_pos (by omega)
  unfold Fits intMin intMax
  generalize (2 : Int) ^ (w - 1) = x at h ⊢
  omega

theorem commonVisits_cons_left_not_mem (a : Int) (as l2 : List Int) (p1 p2 : Nat) (h : a ∉ l2) :
    commonVisits (a :: as) l2 p1 p2 = commonVisits as l2 (p1 + 1) p2 := by
  unfold commonVisits
  simp only [List.zipIdx_cons, List.filterMap_cons, h, if_false]
  rw [List.zipIdx_succ, List.filterMap_map]
  apply filterMap_congr'
  intro x _
  simp only [Function.comp]
  split <;> simp; omega

theorem commonVisits_cons_left_mem (a : Int) (as l2 : List Int) (p1 p2 : Nat) (h : a ∈ l2) :
    commonVisits (a :: as) l2 p1 p2 = (a, p1, p2 + l2.idxOf a) :: commonVisits as l2 (p1 + 1) p2 := by
  unfold commonVisits
  simp only [List.zipIdx_cons, List.filterMap_cons, h, if_true, Nat.add_zero]
  congr 1
  rw [List.zipIdx_succ, List.filterMap_map]
  apply filterMap_congr'
  intro x _
  simp only [Function.comp]
  split <;> simp; omega

theorem commonVisits_cons_right_not_mem (l1 bs : List Int) (b : Int) (p1 p2 : Nat) (h : b ∉ l1) :
    commonVisits l1 (b :: bs) p1 p2 = commonVisits l1 bs p1 (p2 + 1) := by
  unfold commonVisits
  apply filterMap_congr'
  intro x hx
  have hne : x.1 ≠ b := by
    intro he; apply h; rw [← he]; exact List.mem_of_getElem? (List.mem_zipIdx_iff_getElem?.1 hx)
  have hne' : (b == x.1) = false := by simpa using fun h => hne h.symm
  simp only [List.mem_cons, hne, false_or, List.idxOf_cons, hne']
  split <;> simp; omega

theorem iterateIdentical_eq {σ : Type} (F : Int → Nat → Nat → σ → σ × Bool) :
    ∀ (n : Nat) (l1 l2 : List Int) (p1 p2 : Nat) (s : σ), l1.length + l2.length ≤ n →
    StrictAsc l1 → StrictAsc l2 →
    iterateIdentical F l1 l2 p1 p2 s = runVisits F (commonVisits l1 l2 p1 p2) s := by
  intro n
  induction n with
  | zero =>
    intro l1 l2 p1 p2 s hn _ _
    have : l1 = [] := List.eq_nil_of_length_eq_zero (by omega)
    subst this; simp [iterateIdentical, commonVisits, runVisits]
  | succ n ih =>
    intro l1 l2 p1 p2 s hn h1 h2
    match l1, l2 with
    | [], _ => simp [iterateIdentical, commonVisits, runVisits]
    | a :: as, [] =>
      have : (fun ai : Int × Nat => if ai.1 ∈ ([] : List Int) then
          some (ai.1, p1 + ai.2, p2 + ([] : List Int).idxOf ai.1) else none) = fun _ => none := by
        funext x; simp
      have h0 : ∀ l : List (Int × Nat), l.filterMap (fun _ => (none : Option (Int × Nat × Nat))) = [] := by
        intro l; induction l <;> simp_all
      rw [commonVisits, this, h0]
      simp [iterateIdentical, runVisits]
    | a :: as, b :: bs =>
      have h1' := List.pairwise_cons.1 h1
      have h2' := List.pairwise_cons.1 h2
      simp only [List.length_cons] at hn
      rw [iterateIdentical]
      by_cases hab : a < b
      · rw [if_pos hab, ih _ _ _ _ _ (by simp; omega) h1'.2 h2]
        rw [commonVisits_cons_left_not_mem]
        intro hm
        rcases List.mem_cons.1 hm with h | h
        · omega
        · have := h2'.1 a h; omega
      · rw [if_neg hab]
        by_cases hba : a > b
        · rw [if_pos hba, ih _ _ _ _ _ (by simp; omega) h1 h2'.2]
          rw [commonVisits_cons_right_not_mem]
          intro hm
          rcases List.mem_cons.1 hm with h | h
          · omega
          · have := h1'.1 b h; omega
        · rw [if_neg hba]
          have he : a = b := by omega
          subst he
          rw [commonVisits_cons_left_mem _ _ _ _ _ (by simp)]
          simp only [List.idxOf_cons_self, Nat.add_zero, runVisits]
          split
          · rfl
          · rw [ih _ _ _ _ _ (by omega) h1'.2 h2'.2]
            rw [commonVisits_cons_right_not_mem]
            intro hm
            have := h1'.1 a hm; omega

theorem splitGo_ne_nil (d : Char) : ∀ (s cur : List Char), splitGo d cur s ≠ [] := by
  intro s
  induction s with
  | nil => intro cur; simp [splitGo]
  | cons c cs ih => intro cur; unfold splitGo; split; exact ih _; simp

theorem joinWith_cons (d : Char) (x : List Char) (l : List (List Char)) (h : l ≠ []) :
    joinWith d (x :: l) = x ++ d :: joinWith d l := by
  cases l with
  | nil => exact absurd rfl h
  | cons y r => rfl

theorem splitGo_join (d : Char) : ∀ (s cur : List Char),
    joinWith d (splitGo d cur s) = cur.reverse ++ s := by
  intro s
  induction s with
  | nil => intro cur; simp [splitGo, joinWith]
  | cons c cs ih =>
    intro cur
    unfold splitGo
    split
    · rw [ih]; simp
    · rename_i h
      have : c = d := by simpa using h
      rw [joinWith_cons _ _ _ (splitGo_ne_nil d cs []), ih, this]; simp

theorem splitGo_no_delim (d : Char) : ∀ (s cur : List Char), d ∉ cur →
    ∀ p ∈ splitGo d cur s, d ∉ p := by
  intro s
  induction s with
  | nil => intro cur h p hp; simp [splitGo] at hp; subst hp; simpa using h
  | cons c cs ih =>
    intro cur h p hp
    unfold splitGo at hp
    split at hp
    · rename_i hc
      exact ih (c :: cur) (by simp [h]; exact fun e => hc e.symm) p hp
    · rcases List.mem_cons.1 hp with rfl | hp
      · simpa using h
      · exact ih [] (by simp) p hp

theorem splitSString_unique (d : Char) : ∀ (l : List (List Char)), l ≠ [] → (∀ p ∈ l, d ∉ p) →
    splitSString (joinWith d l) d = l := by
  have key : ∀ (p : List Char), d ∉ p → ∀ (rest cur : List Char),
      splitGo d cur (p ++ d :: rest) = (cur.reverse ++ p) :: splitGo d [] rest ∧
      splitGo d cur p = [cur.reverse ++ p] := by
    intro p
    induction p with
    | nil => intro _ rest cur; simp [splitGo]
    | cons c cs ih =>
      intro hp rest cur
      have hc : c ≠ d := fun h => hp (by simp [h])
      have hcs : d ∉ cs := fun h => hp (by simp [h])
      have := ih hcs rest (c :: cur)
      simp only [List.cons_append, splitGo, if_pos hc]
      rw [this.1, this.2]; simp
  intro l
  induction l with
  | nil => intro h; exact absurd rfl h
  | cons x r ih =>
    intro _ hl
    cases r with
    | nil => simpa [splitSString, joinWith] using (key x (hl x (by simp)) [] []).2
    | cons y r =>
      rw [joinWith_cons _ _ _ (by simp)]
      unfold splitSString
      rw [(key x (hl x (by simp)) _ []).1]
      have := ih (by simp) (fun p hp => hl p (by simp [hp]))
      unfold splitSString at this
      rw [this]; simp

end DNDSR.Defines
