import Verif.Spec.SerArray
import Verif.Proof.ArrayRun
import Verif.Proof.ArrayStep
import Verif.Props.Defines

namespace DNDSR.SerArr

open DNDSR.Defines
open DNDSR.Arr hiding Array

/-! ## numbers as text -/

theorem digitVal_of {n : Nat} (h : n < 10) : digitVal (Char.ofNat (48 + n)) = some n := by
  have : ∀ k : Fin 10, digitVal (Char.ofNat (48 + k)) = some k.val := by decide
  exact this ⟨n, h⟩

theorem digits_spec (n : Nat) : (∀ c ∈ digits n, (digitVal c).isSome) ∧ digits n ≠ [] := by
  induction n using Nat.strongRecOn with
  | _ n ih =>
    rw [digits]
    split
    · next h => simp [digitVal_of h]
    · next h =>
      have hh := ih (n / 10) (by omega)
      refine ⟨?_, by simp⟩
      intro c hc
      rcases List.mem_append.1 hc with hc | hc
      · exact hh.1 c hc
      · simp only [List.mem_singleton] at hc
        subst hc
        rw [digitVal_of (by omega)]; rfl

theorem readDigits_snoc (l : List Char) (acc d : Nat) (c : Char) (hl : ∀ c ∈ l, (digitVal c).isSome)
    (hc : digitVal c = some d) : readDigits acc (l ++ [c]) = readDigits acc l * 10 + d := by
  induction l generalizing acc with
  | nil => simp [readDigits, hc]
  | cons x xs ih =>
    obtain ⟨v, hv⟩ := Option.isSome_iff_exists.1 (hl x (by simp))
    simp only [List.cons_append, readDigits, hv]
    exact ih _ (fun c hc => hl c (by simp [hc]))

theorem readDigits_digits (n : Nat) : readDigits 0 (digits n) = n := by
  induction n using Nat.strongRecOn with
  | _ n ih =>
    rw [digits]
    split
    · next h => simp [readDigits, digitVal_of h]
    · next h =>
      rw [readDigits_snoc _ 0 (n % 10) _ (digits_spec _).1 (digitVal_of (by omega)), ih (n / 10) (by omega)]
      omega

theorem digits_not (n : Nat) (c : Char) (h : digitVal c = none) : c ∉ digits n := by
  intro hc
  have := (digits_spec n).1 c hc
  rw [h] at this
  cases this

theorem toStr_no_bar (i : Int) : '_' ∉ toStr i ∧ toStr i ≠ [] := by
  unfold toStr
  have h1 := digits_not i.natAbs '_' (by decide)
  have h2 := (digits_spec i.natAbs).2
  split
  · exact ⟨by simp [h1], by simp⟩
  · exact ⟨h1, h2⟩

theorem stoi_toStr (i : Int) (h : -2147483648 ≤ i ∧ i ≤ 2147483647) : stoi (toStr i) = .ok i := by
  have hs := digits_spec i.natAbs
  have hr := readDigits_digits i.natAbs
  have hm := digits_not i.natAbs '-' (by decide)
  unfold toStr
  revert hs hr hm
  generalize digits i.natAbs = l
  intro hs hr hm
  cases l with
  | nil => exact absurd rfl hs.2
  | cons c cs =>
    have hc : (digitVal c).isNone = false := by
      have := hs.1 c (by simp)
      cases hd : digitVal c <;> simp [hd] at this ⊢
    by_cases hneg : i < 0
    · rw [if_pos hneg]
      simp only [stoi, hc, hr]
      simp only [Bool.false_eq_true, if_false, if_true]
      rw [if_pos (by omega)]
      congr 1; omega
    · rw [if_neg hneg]
      have hne : c ≠ '-' := by rintro rfl; simp at hm
      have : stoi (c :: cs) = (if -2147483648 ≤ ((readDigits 0 (c :: cs) : Nat) : Int) ∧
          ((readDigits 0 (c :: cs) : Nat) : Int) ≤ 2147483647 then .ok ((readDigits 0 (c :: cs) : Nat) : Int)
          else .abort) := by
        unfold stoi
        split
        · next heq => 
          split at heq
          · next h2 => simp only [List.cons.injEq] at h2; exact absurd h2.1 hne
          · next h2 => 
            simp only [Prod.mk.injEq] at heq
            obtain ⟨rfl, rfl⟩ := heq
            simp only [hc]
            simp
      rw [this, hr, if_pos (by omega)]
      congr 1; omega

/-! ## the signature -/

/-- the words of the layout's name -/
def nameWords : Layout → List (List Char)
  | .csr => [['C', 'S', 'R']]
  | .staticFixed => [['T', 'A', 'B', 'L', 'E'], ['S', 't', 'a', 't', 'i', 'c', 'F', 'i', 'x', 'e', 'd']]
  | .fixed => [['T', 'A', 'B', 'L', 'E'], ['F', 'i', 'x', 'e', 'd']]
  | .staticMax => [['T', 'A', 'B', 'L', 'E'], ['S', 't', 'a', 't', 'i', 'c', 'M', 'a', 'x']]
  | .max => [['T', 'A', 'B', 'L', 'E'], ['M', 'a', 'x']]
  | .errorLayout => []

theorem sig_join (l : Layout) (h : l ≠ .errorLayout) (A B C D : List Char) :
    layoutName l ++ ['_', '_'] ++ A ++ ['_'] ++ B ++ ['_'] ++ C ++ ['_'] ++ D =
      joinWith '_' (nameWords l ++ [[], A, B, C, D]) := by
  cases l with
  | errorLayout => exact absurd rfl h
  | _ => simp only [layoutName, nameWords, joinWith, List.append_assoc, List.cons_append, List.nil_append]

theorem nameWords_spec : ∀ l : Layout, ∀ p ∈ nameWords l, '_' ∉ p ∧ p ≠ [] := by
  intro l
  cases l <;> decide

theorem split_signature (t : STy) (h : t.ty.layout ≠ .errorLayout) :
    splitSStringClean (signature t) '_' =
      nameWords t.ty.layout ++ [toStr t.sz, toStr t.ty.rs, toStr t.ty.rm, toStr t.align] := by
  unfold signature
  rw [sig_join _ h, splitSStringClean_spec]
  · rw [List.filter_append]
    congr 1
    · rw [List.filter_eq_self]
      intro p hp
      simpa using (nameWords_spec _ p hp).2
    · simp [(toStr_no_bar _).2]
  · simp
  · intro p hp
    rcases List.mem_append.1 hp with hp | hp
    · exact (nameWords_spec _ p hp).1
    · simp only [List.mem_cons, List.not_mem_nil, or_false] at hp
      rcases hp with rfl | rfl | rfl | rfl | rfl <;> first | exact (toStr_no_bar _).1 | simp

theorem layout_rs_ge {t : STy} (h : t.ty.layout ≠ .errorLayout) : -2 ≤ t.ty.rs := by
  by_cases h1 : t.ty.rs ≥ 0
  · omega
  · by_cases h2 : t.ty.rs = DynamicSize
    · unfold DynamicSize at h2; omega
    · by_cases h3 : t.ty.rs = NonUniformSize
      · unfold NonUniformSize at h3; omega
      · exfalso; apply h
        unfold Ty.layout
        rw [if_neg (by simp [h1]), if_neg h2, if_neg h3]

theorem parse_signature (t : STy) (h : Valid t) :
    parseSignature (signature t) = .ok ((t.sz : Int), t.ty.rs, t.ty.rm, t.align) := by
  have h1 := stoi_toStr t.sz (by have := h.sz; omega)
  have h2 := stoi_toStr t.ty.rs (by have := layout_rs_ge h.lay; have := h.rs; omega)
  have h3 := stoi_toStr t.ty.rm h.rm
  have h4 := stoi_toStr t.align h.align
  unfold parseSignature
  rw [split_signature t h.lay]
  have := h.lay
  cases hl : t.ty.layout <;> simp_all [nameWords, Res.assert]

theorem sigCompatible_eq (W R : STy) (hW : Valid W) :
    sigCompatible R (signature W) = .ok (decide (W.sz = R.sz ∧ ¬ (W.ty.rs ≥ 0 ∧ R.ty.rs ≥ 0 ∧ W.ty.rs ≠ R.ty.rs) ∧
      ¬ (W.ty.rm ≥ 0 ∧ R.ty.rm ≥ 0 ∧ W.ty.rm ≠ R.ty.rm))) := by
  unfold sigCompatible
  rw [parse_signature W hW]
  simp only [Res.ok_bind]
  by_cases h1 : W.sz = R.sz
  · rw [if_neg (by omega)]
    by_cases h2 : W.ty.rs ≥ 0 ∧ R.ty.rs ≥ 0 ∧ W.ty.rs ≠ R.ty.rs
    · simp only [h2, and_self, ne_eq, not_false_eq_true, if_true, not_true, false_and, and_false, decide_false]
    · rw [if_neg h2]
      by_cases h3 : W.ty.rm ≥ 0 ∧ R.ty.rm ≥ 0 ∧ W.ty.rm ≠ R.ty.rm
      · rw [if_pos h3]
        congr 1
        symm
        rw [decide_eq_false_iff_not]
        exact fun h => h.2.2 h3
      · rw [if_neg h3]
        congr 1
        symm
        rw [decide_eq_true_iff]
        exact ⟨h1, h2, h3⟩
  · rw [if_pos (by omega)]
    congr 1
    symm
    rw [decide_eq_false_iff_not]
    exact fun h => h1 h.1

/-- the head of `ReadSerializer` in closed form -/
theorem readArr_eq {α : Type} (W R : STy) (hW : Valid W) (hR : Valid R) (a : Arr.Array α) (d : Doc α) (hs : d.sig = signature W) :
    readArr R a d =
      if W.sz = R.sz ∧ ¬ (W.ty.rs ≥ 0 ∧ R.ty.rs ≥ 0 ∧ W.ty.rs ≠ R.ty.rs) ∧
          ¬ (W.ty.rm ≥ 0 ∧ R.ty.rm ≥ 0 ∧ W.ty.rm ≠ R.ty.rm) ∧
          ¬ (R.ty.rs ≠ W.ty.rs ∧ (R.ty.rs = NonUniformSize ∨ W.ty.rs = NonUniformSize)) then
        (adjustDyn R W.ty.rs W.ty.rm d.rowSizeDyn >>= fun dyn => readBody R { a with size := d.size, rowSizeDyn := dyn } d)
      else .abort := by
  have hcompat : sigAccepted R d.sig =
      .ok (decide (W.sz = R.sz ∧ ¬ (W.ty.rs ≥ 0 ∧ R.ty.rs ≥ 0 ∧ W.ty.rs ≠ R.ty.rs) ∧
      ¬ (W.ty.rm ≥ 0 ∧ R.ty.rm ≥ 0 ∧ W.ty.rm ≠ R.ty.rm))) := by
    unfold sigAccepted
    rw [hs, sigCompatible_eq W R hW]
    split
    · next he =>
      congr 1
      symm
      rw [decide_eq_true_iff]
      have p1 := parse_signature W hW
      rw [he, parse_signature R hR] at p1
      simp only [Res.ok.injEq, Prod.mk.injEq] at p1
      obtain ⟨e1, e2, e3, _⟩ := p1
      refine ⟨by omega, ?_, ?_⟩
      · rintro ⟨_, _, h⟩; exact h e2.symm
      · rintro ⟨_, _, h⟩; exact h e3.symm
    · rfl
  unfold readArr
  rw [hcompat]
  simp only [Res.ok_bind, hs, parse_signature W hW]
  by_cases h1 : W.sz = R.sz ∧ ¬ (W.ty.rs ≥ 0 ∧ R.ty.rs ≥ 0 ∧ W.ty.rs ≠ R.ty.rs) ∧
          ¬ (W.ty.rm ≥ 0 ∧ R.ty.rm ≥ 0 ∧ W.ty.rm ≠ R.ty.rm)
  · rw [decide_eq_true h1, Res.assert_true _ rfl, Res.ok_bind]
    by_cases h2 : ¬ (R.ty.rs ≠ W.ty.rs ∧ (R.ty.rs = NonUniformSize ∨ W.ty.rs = NonUniformSize))
    · rw [Res.assert_true _ h2, Res.ok_bind, if_pos ⟨h1.1, h1.2.1, h1.2.2, h2⟩]
    · rw [if_neg (fun h => h2 h.2.2.2)]
      simp only [Res.assert, if_neg h2, Res.abort_bind]
  · rw [decide_eq_false h1, if_neg (fun h => h1 ⟨h.1, h.2.1, h.2.2.1⟩)]
    simp [Res.assert]

/-! ## arrays -/

variable {α : Type}

theorem layout_cases (t : Ty) (h : t.layout ≠ .errorLayout) :
    (t.layout = .staticFixed ∧ 0 ≤ t.rs) ∨ (t.layout = .fixed ∧ t.rs = -1) ∨
    (t.layout = .csr ∧ t.rs = -2 ∧ t.rm = -2) ∨ (t.layout = .max ∧ t.rs = -2 ∧ t.rm = -1) ∨
    (t.layout = .staticMax ∧ t.rs = -2 ∧ 0 ≤ t.rm) := by
  revert h
  unfold Ty.layout DynamicSize NonUniformSize
  split
  · intro _; left; exact ⟨rfl, by omega⟩
  · split
    · intro _; right; left; exact ⟨rfl, by omega⟩
    · split
      · split
        · intro _; right; right; left; exact ⟨rfl, by omega, by omega⟩
        · split
          · intro _; right; right; right; left; exact ⟨rfl, by omega, by omega⟩
          · split
            · intro _; right; right; right; right; exact ⟨rfl, by omega, by omega⟩
            · intro h; exact absurd rfl h
      · intro h; exact absurd rfl h

theorem represents_empty (ty : Ty) (h : ty.layout ≠ .errorLayout) (a : Arr.Array α) (h0 : a.size = 0) :
    Represents ty a ⟨[], stride ty a⟩ := by
  refine ⟨by simp [h0], by intro i hi; simp at hi, ?_, ?_⟩
  · intro hc
    unfold rowSizeField stride
    cases hl : ty.layout <;> simp_all
  · intro i j
    have : lookup ([] : List (List α)) i j = none := by simp [lookup]
    rw [this]
    have hn : ¬ (i < (a.size : Int) ∧ i ≥ 0) := by rw [h0]; omega
    simp only [atRead, addr, Res.assert, if_neg hn, Res.abort_bind]

/-- same table, same rows -/
theorem represents_table {W R : Ty} {a b : Arr.Array α} (ha : Inv W a) (hW : W.layout ≠ .csr)
    (hR : R.layout ≠ .csr) (hRe : R.layout ≠ .errorLayout)
    (hk : (W.layout = .max ∨ W.layout = .staticMax) ↔ (R.layout = .max ∨ R.layout = .staticMax))
    (hs : b.size = a.size) (hd : b.data = a.data) (hst : stride R b = stride W a)
    (hz : W.layout = .max ∨ W.layout = .staticMax → b.pRowSizes = a.pRowSizes ∧ a.pRowSizes.isSome) :
    Represents R b (valOf W a) := by
  have hI : Inv R b := by
    refine ⟨hRe, ?_, ?_, ?_, ?_⟩
    · intro _; rw [hs, hd, hst]; exact ha.table hW
    · intro h
      have h' := hk.2 h
      rw [hs, (hz h').1, hst]
      exact ha.sizes h'
    · intro h; exact absurd h.1 hR
    · intro h; exact absurd h hR
  have := represents_valOf hI
  have e : valOf R b = valOf W a := by
    have n1 : ¬ isUnc R b := fun h => hR h.1
    have n2 : ¬ isUnc W a := fun h => hW h.1
    have s1 : startOf R b = startOf W a := by
      funext i
      unfold startOf
      cases h1 : R.layout <;> cases h2 : W.layout <;> simp_all
    have s2 : lenOf R b = lenOf W a := by
      funext i
      unfold lenOf
      cases h1 : R.layout <;> cases h2 : W.layout <;> simp_all
    unfold valOf rowsOf
    rw [if_neg n1, if_neg n2, s1, s2, hs, hd, hst]
  rw [e] at this
  exact this

theorem writeArr_table (z : α) (t : STy) (h : t.ty.layout ≠ .csr) (a : Arr.Array α)
    (hz : t.ty.layout = .max ∨ t.ty.layout = .staticMax → a.pRowSizes.isSome) :
    ∃ d, writeArr z t a = .ok (a, d) ∧ d.sig = signature t ∧ d.size = a.size ∧ d.rowSizeDyn = a.rowSizeDyn ∧
      d.data = a.data ∧ d.pRowStart = none ∧
      (t.ty.layout = .max ∨ t.ty.layout = .staticMax → d.pRowSizes = a.pRowSizes) ∧
      (¬ (t.ty.layout = .max ∨ t.ty.layout = .staticMax) → d.pRowSizes = none) := by
  unfold writeArr
  cases hl : t.ty.layout with
  | csr => exact absurd hl h
  | max =>
    obtain ⟨sz, hsz⟩ := Option.isSome_iff_exists.1 (hz (.inl hl))
    simp [hsz]
  | staticMax =>
    obtain ⟨sz, hsz⟩ := Option.isSome_iff_exists.1 (hz (.inr hl))
    simp [hsz]
  | _ => simp

theorem writeArr_csr (z : α) (t : STy) (h : t.ty.layout = .csr) (a : Arr.Array α) (hI : Inv t.ty a) :
    ∃ a' d st, writeArr z t a = .ok (a', d) ∧ Inv t.ty a' ∧ valOf t.ty a' = valOf t.ty a ∧ d.sig = signature t ∧
      d.size = a'.size ∧ d.rowSizeDyn = a'.rowSizeDyn ∧ d.data = a'.data ∧ d.pRowStart = some st ∧
      a'.pRowStart = some st ∧ d.pRowSizes = none ∧ (a'.size > 0 → ifCompressed a' = true) := by
  obtain ⟨a', h1, h2, h3, h4⟩ := csrCompress_spec z hI h
  have hsz : a'.size = a.size := by
    have := congrArg (fun v => v.rows.length) h3
    simp only [valOf] at this
    rw [rowsOf_length h2, rowsOf_length hI] at this
    exact this
  have hst : ∃ st, a'.pRowStart = some st := by
    unfold csrCompress at h1
    split at h1
    · next hc =>
      injection h1 with h1
      subst h1
      unfold ifCompressed at hc
      split at hc
      · exact Option.isSome_iff_exists.1 hc
      · cases hc
    · simp only [Res.bind_ok_iff] at h1
      obtain ⟨_, _, _, _, _, _, h1⟩ := h1
      injection h1 with h1
      subst h1
      exact ⟨_, rfl⟩
  obtain ⟨st, hst⟩ := hst
  have he : ensureCompressed z t a = .ok a' := by
    unfold ensureCompressed compress
    rw [h]
    split
    · next hc => simpa [csrCompress, hc] using h1
    · exact h1
  refine ⟨a', ⟨signature t, a'.size, a'.rowSizeDyn, some st, none, a'.data⟩, st, ?_, h2, h3, rfl, rfl, rfl, rfl, rfl, hst, rfl, ?_⟩
  · unfold writeArr
    simp only [h, he, Res.ok_bind, hst]
  · intro hp; exact h4 (by omega)

/-- the width adjustment gives the writer's width for compatible plain types -/
theorem adjust_ok {W R : STy} (hW : Valid W) (hR : Valid R) (pW : Plain W) (pR : Plain R) (a b : Arr.Array α)
    (hc : Compatible W R (stride W.ty a)) (hk : kind W ≠ .csr) :
    ∃ dyn, adjustDyn R W.ty.rs W.ty.rm a.rowSizeDyn = .ok dyn ∧
      ∀ b : Arr.Array α, b.rowSizeDyn = dyn → stride R.ty b = stride W.ty a := by
  obtain ⟨_, h2, h3, h4⟩ := hc
  unfold Plain NonUniformSize at pW pR
  unfold kind at h2 hk
  unfold adjustDyn stride at *
  unfold DynamicSize
  rcases layout_cases W.ty hW.lay with ⟨e, g⟩ | ⟨e, g⟩ | ⟨e, g, g'⟩ | ⟨e, g, g'⟩ | ⟨e, g, g'⟩ <;>
  rcases layout_cases R.ty hR.lay with ⟨f, k⟩ | ⟨f, k⟩ | ⟨f, k, k'⟩ | ⟨f, k, k'⟩ | ⟨f, k, k'⟩ <;>
  simp only [e, f] at * <;> try (exact absurd h2 (by decide))
  · have := pW (by omega); have := pR (by omega)
    have h3' := h3 trivial
    rw [if_pos (by omega), if_neg (by omega), if_pos (by omega), Res.assert_true _ (by omega)]
    exact ⟨_, rfl, fun b _ => by omega⟩
  · have := pW (by omega); have := pR (by omega)
    rw [if_neg (by omega)]
    refine ⟨_, rfl, fun b hb => ?_⟩
    rw [hb, if_pos (by omega)]
    omega
  · have := pW (by omega); have := pR (by omega)
    have h3' := h3 trivial
    rw [if_pos (by omega), if_pos (by omega), Res.assert_true _ (by omega)]
    exact ⟨_, rfl, fun b _ => by omega⟩
  · have := pW (by omega); have := pR (by omega)
    rw [if_neg (by omega)]
    refine ⟨_, rfl, fun b hb => ?_⟩
    rw [hb, if_neg (by omega), if_neg (by omega)]
  · exact absurd rfl hk
  · rw [if_neg (by omega)]
    refine ⟨_, rfl, fun b hb => ?_⟩
    rw [hb, if_neg (by omega), if_neg (by omega)]
  · have h4' := h4 trivial
    rw [if_neg (by omega)]
    exact ⟨_, rfl, fun b _ => by omega⟩
  · rw [if_neg (by omega)]
    refine ⟨_, rfl, fun b hb => ?_⟩
    rw [hb, if_pos (by omega)]
  · have h4' := h4 trivial
    rw [if_neg (by omega)]
    exact ⟨_, rfl, fun b _ => by omega⟩

end DNDSR.SerArr
