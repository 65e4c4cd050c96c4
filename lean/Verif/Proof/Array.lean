import Verif.Spec.Array

/-! Helper lemmas for `Verif.Props.Array`. -/

namespace DNDSR.Arr

variable {α : Type}

/-! ### vectors -/

theorem vat_ok {β : Type} (l : List β) (k : Nat) (h : k < l.length) : vat l k = .ok l[k] := by
  simp [vat, h]

theorem vat_ok_iff {β : Type} (l : List β) (k : Nat) (v : β) : vat l k = .ok v ↔ l[k]? = some v := by
  unfold vat; cases h : l[k]? <;> simp

theorem vat_ne_ub {β : Type} (l : List β) (k : Nat) : vat l k ≠ .ub := by
  unfold vat; cases h : l[k]? <;> simp

theorem vresize_length {β : Type} (z : β) (l : List β) (n : Nat) : (vresize z l n).length = n := by
  simp [vresize]; omega

theorem vresize_getElem? {β : Type} (z : β) (l : List β) (n k : Nat) (h : k < n) :
    (vresize z l n)[k]? = some (l[k]?.getD z) := by
  unfold vresize
  rw [List.getElem?_append]
  by_cases hk : k < l.length
  · rw [if_pos (by simp; omega), List.getElem?_take_of_lt h]
    simp [hk]
  · rw [if_neg (by simp; omega)]
    simp [List.getElem?_replicate, List.getElem?_eq_none (Nat.le_of_not_lt hk)]
    omega

theorem vresize_eq_padTo {β : Type} (z : β) (l : List β) (n : Nat) : vresize z l n = padTo z l n := by
  apply List.ext_getElem?
  intro k
  by_cases hk : k < n
  · rw [vresize_getElem? _ _ _ _ hk, padTo, List.getElem?_take_of_lt hk, List.getElem?_append]
    by_cases h : k < l.length
    · simp [h]
    · rw [if_neg h, List.getElem?_replicate, if_pos (by omega)]
      simp [List.getElem?_eq_none (Nat.le_of_not_lt h)]
  · rw [List.getElem?_eq_none (by simp [vresize_length]; omega),
      List.getElem?_eq_none (by simp [padTo]; omega)]

/-! ### tables: rows described by start and length -/

/-- `n` rows, row `i` being `len i` elements of `d` from `st i` -/
def tbl (n : Nat) (st len : Nat → Nat) (d : List α) : List (List α) :=
  (List.range n).map (fun i => (d.drop (st i)).take (len i))

theorem tbl_length (n : Nat) (st len : Nat → Nat) (d : List α) : (tbl n st len d).length = n := by
  simp [tbl]

theorem tbl_getElem? (n : Nat) (st len : Nat → Nat) (d : List α) (i : Nat) (h : i < n) :
    (tbl n st len d)[i]? = some ((d.drop (st i)).take (len i)) := by
  simp [tbl, h]

theorem tbl_getElem (n : Nat) (st len : Nat → Nat) (d : List α) (i : Nat)
    (h : i < (tbl n st len d).length) :
    (tbl n st len d)[i] = (d.drop (st i)).take (len i) := by
  simp [tbl]

theorem row_length (d : List α) (s l : Nat) (h : s + l ≤ d.length) :
    ((d.drop s).take l).length = l := by simp; omega

theorem row_getElem? (d : List α) (s l j : Nat) :
    ((d.drop s).take l)[j]? = if j < l then d[s + j]? else none := by
  rw [List.getElem?_take]; split <;> simp

/-- rows of the table lie inside the data and do not overlap -/
structure Good (n : Nat) (st len : Nat → Nat) (d : List α) : Prop where
  inb : ∀ i, i < n → st i + len i ≤ d.length
  sep : ∀ i k, i < k → k < n → st i + len i ≤ st k

theorem tbl_write (n : Nat) (st len : Nat → Nat) (d : List α) (hg : Good n st len d)
    (i j : Nat) (hi : i < n) (hj : j < len i) (v : α) :
    tbl n st len (d.set (st i + j) v) = (tbl n st len d).modify i (fun row => row.set j v) := by
  apply List.ext_getElem?
  intro k
  rw [List.getElem?_modify]
  by_cases hk : k < n
  · rw [tbl_getElem? _ _ _ _ _ hk, tbl_getElem? _ _ _ _ _ hk]
    simp only [Option.map_some, Option.some.injEq, Option.map_eq_map]
    apply List.ext_getElem?
    intro m
    rw [row_getElem?]
    by_cases hik : i = k
    · subst hik
      simp only [if_true]
      rw [List.getElem?_set]
      rw [List.getElem?_set]
      simp only [row_getElem?]
      by_cases hm : m < len i
      · have := hg.inb i hi
        by_cases hjm : j = m
        · subst hjm
          rw [if_pos hm, if_pos rfl, if_pos (by omega), if_pos rfl, row_length _ _ _ this, if_pos hj]
        · rw [if_pos hm, if_neg (by omega), if_neg hjm, if_pos hm]
      · rw [if_neg hm, if_neg (by omega), if_neg hm]
    · rw [if_neg hik, row_getElem?]
      split
      · rename_i hm
        rw [List.getElem?_set_ne]
        rcases Nat.lt_or_gt_of_ne hik with h | h
        · have := hg.sep i k h hk; omega
        · have := hg.sep k i h hi; omega
      · rfl
  · rw [List.getElem?_eq_none (by simp [tbl_length]; omega),
      List.getElem?_eq_none (by simp [tbl_length]; omega)]
    simp

/-! ### the invariant and the value of an array -/

/-- start of row `i` in flat storage -/
def startOf (ty : Ty) (a : Array α) (i : Nat) : Nat :=
  match ty.layout with
  | .csr => (a.pRowStart.getD [])[i]?.getD 0
  | _ => i * stride ty a

/-- length of row `i` in flat storage -/
def lenOf (ty : Ty) (a : Array α) (i : Nat) : Nat :=
  match ty.layout with
  | .csr => (a.pRowStart.getD [])[i + 1]?.getD 0 - (a.pRowStart.getD [])[i]?.getD 0
  | .max | .staticMax => (a.pRowSizes.getD [])[i]?.getD 0
  | _ => stride ty a

/-- uncompressed CSR storage -/
def isUnc (ty : Ty) (a : Array α) : Prop := ty.layout = .csr ∧ ifCompressed a = false

instance (ty : Ty) (a : Array α) : Decidable (isUnc ty a) := by unfold isUnc; infer_instance

def rowsOf (ty : Ty) (a : Array α) : List (List α) :=
  if isUnc ty a then a.dataU
  else tbl a.size (startOf ty a) (lenOf ty a) a.data

def valOf (ty : Ty) (a : Array α) : Val α :=
  ⟨rowsOf ty a, stride ty a⟩

/-- CSR row starts: one more than rows, from 0, nondecreasing by less than INT32_MAX, to the end -/
structure StartsOk (st : List Nat) (n total : Nat) : Prop where
  len : st.length = n + 1
  zero : st[0]? = some 0
  last : st[n]? = some total
  mono : ∀ i b e, i < n → st[i]? = some b → st[i + 1]? = some e → b ≤ e ∧ e - b < int32Max

structure Inv (ty : Ty) (a : Array α) : Prop where
  lay : ty.layout ≠ .errorLayout
  table : ty.layout ≠ .csr → a.data.length = a.size * stride ty a
  sizes : ty.layout = .max ∨ ty.layout = .staticMax →
    (a.size = 0 ∧ a.pRowSizes = none) ∨
    ∃ sz, a.pRowSizes = some sz ∧ sz.length = a.size ∧ ∀ s ∈ sz, s ≤ stride ty a
  unc : isUnc ty a → a.dataU.length = a.size ∧ ∀ row ∈ a.dataU, row.length < int32Max
  comp : ty.layout = .csr → ifCompressed a = true →
    ∃ st, a.pRowStart = some st ∧ StartsOk st a.size a.data.length

theorem inv_empty (ty : Ty) (h : ty.layout ≠ .errorLayout) : Inv ty (Array.empty : Array α) := by
  refine ⟨h, ?_, ?_, ?_, ?_⟩
  · simp [Array.empty]
  · intro _; left; simp [Array.empty]
  · intro _; simp [Array.empty]
  · intro _ h; simp [Array.empty, ifCompressed] at h

theorem StartsOk.get {st : List Nat} {n total : Nat} (h : StartsOk st n total) (i : Nat) (hi : i ≤ n) :
    ∃ b, st[i]? = some b := ⟨st[i]'(by have := h.len; omega), by simp⟩

theorem StartsOk.mono' {st : List Nat} {n total : Nat} (h : StartsOk st n total) :
    ∀ k i b e, i + k ≤ n → st[i]? = some b → st[i + k]? = some e → b ≤ e := by
  intro k
  induction k with
  | zero => intro i b e _ h1 h2; rw [Nat.add_zero, h1] at h2; cases h2; exact Nat.le_refl _
  | succ k ih =>
    intro i b e hi h1 h2
    obtain ⟨m, hm⟩ := h.get (i + k) (by omega)
    have := ih i b m (by omega) h1 hm
    have := (h.mono (i + k) m e (by omega) hm h2).1
    omega

theorem Inv.good {ty : Ty} {a : Array α} (h : Inv ty a) (hu : ¬ isUnc ty a) :
    Good a.size (startOf ty a) (lenOf ty a) a.data := by
  by_cases hc : ty.layout = .csr
  · have hcomp : ifCompressed a = true := by
      cases hb : ifCompressed a with
      | true => rfl
      | false => exact absurd ⟨hc, hb⟩ hu
    obtain ⟨st, hst, hok⟩ := h.comp hc hcomp
    constructor
    · intro i hi
      obtain ⟨b, hb⟩ := hok.get i (by omega)
      obtain ⟨e, he⟩ := hok.get (i + 1) (by omega)
      have h1 := (hok.mono i b e hi hb he).1
      have h2 := hok.mono' (a.size - (i + 1)) (i + 1) e a.data.length (by omega) he
        (by rw [Nat.add_sub_cancel' (by omega)]; exact hok.last)
      simp only [startOf, lenOf, hc, hst, Option.getD_some, hb, he]
      omega
    · intro i k hik hk
      obtain ⟨b, hb⟩ := hok.get i (by omega)
      obtain ⟨e, he⟩ := hok.get (i + 1) (by omega)
      obtain ⟨c, hc'⟩ := hok.get k (by omega)
      have h1 := (hok.mono i b e (by omega) hb he).1
      have h2 := hok.mono' (k - (i + 1)) (i + 1) e c (by omega) he
        (by rw [Nat.add_sub_cancel' (by omega)]; exact hc')
      simp only [startOf, lenOf, hc, hst, Option.getD_some, hb, he, hc']
      omega
  · have hlen : ∀ i, i < a.size → lenOf ty a i ≤ stride ty a := by
      intro i hi
      unfold lenOf
      split
      · exact absurd (by assumption) hc
      · rename_i hl
        rcases h.sizes (Or.inl hl) with ⟨h0, _⟩ | ⟨sz, hsz, hl, hle⟩
        · omega
        · simp only [hsz, Option.getD_some]
          rw [List.getElem?_eq_getElem (by omega)]
          exact hle _ (List.getElem_mem _)
      · rename_i hl
        rcases h.sizes (Or.inr hl) with ⟨h0, _⟩ | ⟨sz, hsz, hl, hle⟩
        · omega
        · simp only [hsz, Option.getD_some]
          rw [List.getElem?_eq_getElem (by omega)]
          exact hle _ (List.getElem_mem _)
      · exact Nat.le_refl _
    have hst : ∀ i, startOf ty a i = i * stride ty a := by
      intro i; unfold startOf
      split
      · exact absurd (by assumption) hc
      · rfl
    constructor
    · intro i hi
      rw [hst, h.table hc]
      have h1 := hlen i hi
      have : (i + 1) * stride ty a ≤ a.size * stride ty a := Nat.mul_le_mul_right _ hi
      rw [Nat.add_mul] at this
      omega
    · intro i k hik hk
      rw [hst, hst]
      have h1 := hlen i (by omega)
      have : (i + 1) * stride ty a ≤ k * stride ty a := Nat.mul_le_mul_right _ hik
      rw [Nat.add_mul] at this
      omega

/-- address of element `(i,j)` in a good state -/
def locOf (ty : Ty) (a : Array α) (i j : Nat) : Loc :=
  if isUnc ty a then .unc i j else .flat (startOf ty a i + j)

theorem rowsOf_length {ty : Ty} {a : Array α} (h : Inv ty a) : (rowsOf ty a).length = a.size := by
  unfold rowsOf
  split
  · exact (h.unc (by assumption)).1
  · exact tbl_length _ _ _ _

theorem rowSize_eq {ty : Ty} {a : Array α} (h : Inv ty a) (i : Nat) (hi : i < a.size) :
    ∃ row, (rowsOf ty a)[i]? = some row ∧ rowSize ty a (i : Int) = .ok row.length := by
  by_cases hu : isUnc ty a
  · obtain ⟨hl, hr⟩ := h.unc hu
    refine ⟨a.dataU[i]'(by omega), by simp [rowsOf, hu, hl, hi], ?_⟩
    have h1 : ((i : Int) < a.size ∧ (i : Int) ≥ 0) := by omega
    simp [rowSize, hu.1, hu.2, vat_ok a.dataU i (by omega), hi]
  · refine ⟨_, by rw [rowsOf, if_neg hu]; exact tbl_getElem? _ _ _ _ _ hi, ?_⟩
    rw [row_length _ _ _ ((h.good hu).inb i hi)]
    have h1 : ((i : Int) < a.size ∧ (i : Int) ≥ 0) := by omega
    have hlay := h.lay
    cases hly : ty.layout with
    | errorLayout => exact absurd hly hlay
    | staticFixed => simp [rowSize, lenOf, stride, hly]
    | fixed => simp [rowSize, lenOf, stride, hly]
    | max =>
      rcases h.sizes (Or.inl hly) with ⟨h0, _⟩ | ⟨sz, hsz, hl, hle⟩
      · omega
      · simp [rowSize, lenOf, hly, hsz, vat_ok sz i (by omega), hl, hi]
    | staticMax =>
      rcases h.sizes (Or.inr hly) with ⟨h0, _⟩ | ⟨sz, hsz, hl, hle⟩
      · omega
      · simp [rowSize, lenOf, hly, hsz, vat_ok sz i (by omega), hl, hi]
    | csr =>
      have hcomp : ifCompressed a = true := by
        cases hb : ifCompressed a with
        | true => rfl
        | false => exact absurd ⟨hly, hb⟩ hu
      obtain ⟨st, hst, hok⟩ := h.comp hly hcomp
      obtain ⟨b, hb⟩ := hok.get i (by omega)
      obtain ⟨e, he⟩ := hok.get (i + 1) (by omega)
      obtain ⟨h2, h3⟩ := hok.mono i b e hi hb he
      have vb := (vat_ok_iff st i b).2 hb
      have ve := (vat_ok_iff st (i + 1) e).2 he
      simp [rowSize, lenOf, hly, hcomp, hst, vb, ve, hb, he, Nat.not_lt.2 h2, h3, hi]

theorem addr_eq {ty : Ty} {a : Array α} (h : Inv ty a) (i j : Int) :
    addr ty a i j = if (lookup (rowsOf ty a) i j).isSome then .ok (locOf ty a i.toNat j.toNat)
      else .abort := by
  by_cases hi : (i < a.size ∧ i ≥ 0)
  · obtain ⟨k, rfl⟩ : ∃ k : Nat, i = (k : Int) := ⟨i.toNat, by omega⟩
    have hk : k < a.size := by omega
    obtain ⟨row, hrow, hrs⟩ := rowSize_eq h k hk
    by_cases hj : (j < (row.length : Int) ∧ j ≥ 0)
    · obtain ⟨m, rfl⟩ : ∃ m : Nat, j = (m : Int) := ⟨j.toNat, by omega⟩
      have hm : m < row.length := by omega
      have hlk : lookup (rowsOf ty a) (k : Int) (m : Int) = some row[m] := by
        simp [lookup, hrow, hm]
      rw [hlk]
      simp only [Option.isSome_some, if_true]
      unfold addr
      rw [Res.assert_true _ hi, Res.ok_bind, hrs, Res.ok_bind, Res.assert_true _ hj, Res.ok_bind]
      simp only [Int.toNat_natCast]
      by_cases hu : isUnc ty a
      · obtain ⟨hl, hr⟩ := h.unc hu
        have hrow' : a.dataU[k]? = some row := by simpa [rowsOf, hu] using hrow
        have hv := (vat_ok_iff a.dataU k row).2 hrow'
        simp only [hu.1, hu.2, hv, locOf, if_pos hu, Res.ok_bind, hm, if_true]
        simp
      · have hg := (h.good hu).inb k hk
        rw [rowsOf, if_neg hu, tbl_getElem? _ _ _ _ _ hk, Option.some.injEq] at hrow
        have hlen : row.length = lenOf ty a k := by rw [← hrow, row_length _ _ _ hg]
        have hin : startOf ty a k + m < a.data.length := by omega
        have hlay := h.lay
        cases hly : ty.layout with
        | errorLayout => exact absurd hly hlay
        | staticFixed =>
          simp only [startOf, hly, stride] at hin
          simp [locOf, hu, startOf, hly, stride, hin]
        | fixed =>
          simp only [startOf, hly, stride] at hin
          simp [locOf, hu, startOf, hly, stride, hin]
        | max =>
          simp only [startOf, hly, stride] at hin
          simp [locOf, hu, startOf, hly, stride, hin]
        | staticMax =>
          simp only [startOf, hly, stride] at hin
          simp [locOf, hu, startOf, hly, stride, hin]
        | csr =>
          have hcomp : ifCompressed a = true := by
            cases hb : ifCompressed a with
            | true => rfl
            | false => exact absurd ⟨hly, hb⟩ hu
          obtain ⟨st, hst, hok⟩ := h.comp hly hcomp
          obtain ⟨b, hb⟩ := hok.get k (by omega)
          have vb := (vat_ok_iff st k b).2 hb
          simp only [startOf, hly, hst, Option.getD_some, hb] at hin
          simp [locOf, hu, startOf, hly, hcomp, hst, hb, vb, hin]
    · have hlk : lookup (rowsOf ty a) (k : Int) j = none := by
        unfold lookup
        split
        · simp only [Int.toNat_natCast, hrow, Option.bind_some]
          rw [List.getElem?_eq_none]; omega
        · rfl
      rw [hlk]
      unfold addr
      rw [Res.assert_true _ hi, Res.ok_bind, hrs, Res.ok_bind, (Res.assert_abort_iff _).2 hj,
        Res.abort_bind]
      simp
  · have hlk : lookup (rowsOf ty a) i j = none := by
      unfold lookup
      split
      · rw [List.getElem?_eq_none (by rw [rowsOf_length h]; omega)]; rfl
      · rfl
    rw [hlk]
    unfold addr
    rw [(Res.assert_abort_iff _).2 hi, Res.abort_bind]
    simp

theorem load_locOf {ty : Ty} {a : Array α} (h : Inv ty a) (i j : Nat) (x : α)
    (hx : lookup (rowsOf ty a) i j = some x) : load a (locOf ty a i j) = .ok x := by
  have hx' : (rowsOf ty a)[i]?.bind (fun row => row[j]?) = some x := by
    simpa [lookup] using hx
  obtain ⟨row, hrow, hj⟩ := Option.bind_eq_some_iff.1 hx'
  by_cases hu : isUnc ty a
  · have hrow' : a.dataU[i]? = some row := by simpa [rowsOf, hu] using hrow
    simp [locOf, hu, load, hrow', hj]
  · have hi : i < a.size := by
      have := (List.getElem?_eq_some_iff.1 hrow).1
      rwa [rowsOf_length h] at this
    rw [rowsOf, if_neg hu, tbl_getElem? _ _ _ _ _ hi, Option.some.injEq] at hrow
    rw [← hrow, row_getElem?] at hj
    split at hj
    · simp [locOf, hu, load, hj]
    · cases hj

theorem represents_valOf {ty : Ty} {a : Array α} (h : Inv ty a) : Represents ty a (valOf ty a) := by
  refine ⟨(rowsOf_length h).symm, ?_, ?_, ?_⟩
  · intro i hi
    have hi' : i < a.size := by rw [← rowsOf_length h]; exact hi
    obtain ⟨row, hrow, hrs⟩ := rowSize_eq h i hi'
    rw [hrs]
    have : (valOf ty a).rows[i] = row := by
      have := List.getElem?_eq_getElem hi
      change (rowsOf ty a)[i]? = _ at this
      rw [hrow] at this
      exact (Option.some.inj this).symm
    rw [this]
  · intro hc
    have hlay := h.lay
    cases hly : ty.layout <;> simp_all [rowSizeField, valOf, stride]
  · intro i j
    unfold atRead
    rw [addr_eq h]
    change _ = match lookup (rowsOf ty a) i j with | some x => Res.ok x | none => Res.abort
    cases hx : lookup (rowsOf ty a) i j with
    | none => simp
    | some x =>
      simp only [Option.isSome_some, if_true, Res.ok_bind]
      apply load_locOf h
      have : 0 ≤ i ∧ 0 ≤ j := by
        unfold lookup at hx; split at hx
        · assumption
        · cases hx
      rw [Int.toNat_of_nonneg this.1, Int.toNat_of_nonneg this.2]
      exact hx

theorem lookup_ext {r1 r2 : List (List α)} (hl : r1.length = r2.length)
    (hr : ∀ i, i < r1.length → (r1[i]?).map List.length = (r2[i]?).map List.length)
    (h : ∀ i j : Nat, lookup r1 i j = lookup r2 i j) : r1 = r2 := by
  apply List.ext_getElem hl
  intro i h1 h2
  have := hr i h1
  rw [List.getElem?_eq_getElem h1, List.getElem?_eq_getElem h2] at this
  simp only [Option.map_some, Option.some.injEq] at this
  apply List.ext_getElem? 
  intro j
  have := h i j
  simpa [lookup, h1, h2] using this

/-- the value shown by an array is unique -/
theorem represents_unique {ty : Ty} {a : Array α} {v w : Val α}
    (h1 : Represents ty a v) (h2 : Represents ty a w) :
    v.rows = w.rows ∧ (ty.layout ≠ .csr → v.width = w.width) := by
  have hlen : v.rows.length = w.rows.length := by rw [← h1.size, ← h2.size]
  refine ⟨lookup_ext hlen ?_ ?_, ?_⟩
  · intro i hi
    have e1 := h1.rowSize i hi
    have e2 := h2.rowSize i (by omega)
    rw [e1] at e2
    simp only [Res.ok.injEq] at e2
    simp [hi, e2, ← hlen]
  · intro i j
    have e1 := h1.read i j
    have e2 := h2.read i j
    rw [e1] at e2
    cases hx : lookup v.rows i j <;> cases hy : lookup w.rows i j <;> simp_all
  · intro hc
    have e1 := h1.width hc
    rw [h2.width hc] at e1
    exact (Res.ok.inj e1).symm

end DNDSR.Arr
