import Verif.Proof.ArrayRun

/-!
# `DNDS::Array` (C01, C02, C03)

`Represents`, `SpecStep`, `SpecRun`, `Accepts`, `Usable` are in `Verif.Spec.Array`.
-/

namespace DNDSR.Arr

/-- a type is one of the five valid layouts, `static_assert` at `src/DNDS/Array.hpp:127` -/
abbrev ValidTy (ty : Ty) : Prop := ty.layout ≠ .errorLayout

/-! ## C01 -/

/-- **C01**. After any program of mutator calls on a default-constructed array (of any layout, any
element type), the object shows, through its size, row-size and element queries, exactly the list of
rows obtained by running the program on lists of rows. -/
theorem array_refines_rows {α : Type} (z : α) (ty : Ty) (hty : ValidTy ty) (ops : List (Op α))
    (b : Array α) (hu : UsableRun z ty Array.empty ops) (hr : run z ty Array.empty ops = .ok b) :
    ∃ v, Represents ty b v ∧ SpecRun z ty.layout (emptyVal ty) ops v := by
  obtain ⟨h1, h2⟩ := run_spec z ops _ b (inv_empty ty hty) hu hr
  rw [valOf_empty] at h2
  exact ⟨_, represents_valOf h1, h2⟩

/-- Programs never reach undefined behaviour: a refused call aborts. -/
theorem array_never_ub {α : Type} (z : α) (ty : Ty) (hty : ValidTy ty) (ops : List (Op α))
    (hu : UsableRun z ty Array.empty ops) : run z ty Array.empty ops ≠ .ub :=
  run_ne_ub z ops _ (inv_empty ty hty) hu

/-- A call on a reachable array returns exactly when it is one of the accepted ones, and otherwise
aborts. -/
theorem array_accepts_iff {α : Type} (z : α) (ty : Ty) (hty : ValidTy ty) (a : Array α)
    (ha : Reachable z ty a) (v : Val α) (hv : Represents ty a v) (op : Op α) :
    ((∃ a', step z ty a op = .ok a') ↔ Accepts ty.layout (ifCompressed a) v op) ∧
    (step z ty a op = .abort ↔ ¬ Accepts ty.layout (ifCompressed a) v op) := by
  have hI := reachable_inv z hty ha
  have h1 := step_ok_iff z hI hv op
  refine ⟨h1, ?_⟩
  rw [← h1]
  have h2 := step_ne_ub z hI op
  cases hs : step z ty a op with
  | ok a' => simp
  | abort => simp
  | ub => exact absurd hs h2

/-- The value an array object shows is unique, so "the value of the array" makes sense. -/
theorem array_value_unique {α : Type} (z : α) (ty : Ty) (hty : ValidTy ty) (a : Array α)
    (ha : Reachable z ty a) (v w : Val α) (hv : Represents ty a v) (hw : Represents ty a w) :
    v.rows = w.rows ∧ (ty.layout ≠ .csr → v.width = w.width) := by
  have hI := reachable_inv z hty ha
  refine ⟨by rw [represents_csr_eq hI hv, represents_csr_eq hI hw], fun hc => ?_⟩
  rw [represents_width hI hv hc, represents_width hI hw hc]

-- a CSR program: three rows, made 1, 0 and 2 long, compressed, written, decompressed, grown
def demoCSR : List (Op Nat) :=
  [.resize1 true 3, .resizeRow 0 1, .resizeRow 2 2, .write 2 1 7, .compress, .write 0 0 5,
   .decompress, .resizeRow 1 1]

example : Ty.layout ⟨-2, -2⟩ = .csr := by decide

example : ∃ b, run 0 ⟨-2, -2⟩ Array.empty demoCSR = .ok b ∧ b.dataU = [[5], [0], [0, 7]] := by
  refine ⟨_, rfl, ?_⟩; decide

example : UsableRun 0 ⟨-2, -2⟩ (Array.empty : Array Nat) demoCSR := by
  have hl : Ty.layout ⟨-2, -2⟩ = .csr := by decide
  refine ⟨fun _ _ => ?_, fun a h => ?_⟩
  · simp [Usable, hl, Array.empty]
  cases h
  refine ⟨fun _ _ => by simp [Usable, int32Max], fun a h => ?_⟩
  cases h
  refine ⟨fun _ _ => by simp [Usable, int32Max], fun a h => ?_⟩
  cases h
  refine ⟨fun _ _ => by simp [Usable], fun a h => ?_⟩
  cases h
  refine ⟨fun _ _ => by simp [Usable], fun a h => ?_⟩
  cases h
  refine ⟨fun _ _ => by simp [Usable], fun a h => ?_⟩
  cases h
  refine ⟨fun _ _ => by simp [Usable], fun a h => ?_⟩
  cases h
  refine ⟨fun _ _ => by simp [Usable, int32Max], fun a h => ?_⟩
  trivial

-- a max-width table: two rows of capacity 3, sizes 2 and 3
example : ∃ b, run 0 ⟨-2, -1⟩ Array.empty
    [.resize2 true 2 3, .resizeRow 0 2, .resizeRow 1 3, .write 1 2 9] = .ok b ∧
    rowsOf ⟨-2, -1⟩ b = [[0, 0], [0, 0, 9]] := by
  refine ⟨_, rfl, ?_⟩; decide

/-! ### where the array does not behave as a list of rows -/

/-- Growing a CSR array that was compressed while it was empty: the call returns, the array has three
rows, and then even `RowSize(0)` throws; the rows cannot be used or resized. -/
theorem empty_compressed_csr_cannot_grow :
    ∃ b : Array Nat, run 0 ⟨-2, -2⟩ Array.empty [.compress, .resize1 true 3] = .ok b ∧
      b.size = 3 ∧ rowSize ⟨-2, -2⟩ b 0 = .abort ∧ resizeRow 0 ⟨-2, -2⟩ b 0 1 = .abort ∧
      compress 0 ⟨-2, -2⟩ b = .ok b ∧ decompress ⟨-2, -2⟩ b = .abort := by
  refine ⟨_, rfl, ?_⟩; decide

/-- Shrinking the capacity of a max-width table keeps row sizes larger than the capacity: element
`(0,3)` and element `(1,1)` are then the same storage, so writing one changes the other. -/
theorem max_shrink_aliases_rows :
    ∃ b : Array Nat, run 0 ⟨-2, -1⟩ Array.empty
      [.resize2 true 2 4, .resizeRow 0 4, .resize2 true 2 2, .resizeRow 1 2, .write 0 3 9] = .ok b ∧
      rowSize ⟨-2, -1⟩ b 0 = .ok 4 ∧ rowSizeField ⟨-2, -1⟩ b = .ok 2 ∧
      atRead ⟨-2, -1⟩ b 1 1 = .ok 9 := by
  refine ⟨_, rfl, ?_⟩; decide

/-- `SwapData` on a max-width table does not exchange the row sizes, so the arrays do not exchange
their values: after swapping `[[1]]` with `[[2,3]]` (capacity 2) the first array shows `[[2]]`. -/
theorem swapData_max_not_swap :
    ∃ a b a' b' : Array Nat,
      run 0 ⟨-2, -1⟩ Array.empty [.resize2 true 1 2, .resizeRow 0 1, .write 0 0 1] = .ok a ∧
      run 0 ⟨-2, -1⟩ Array.empty [.resize2 true 1 2, .resizeRow 0 2, .write 0 0 2, .write 0 1 3] = .ok b ∧
      swapData ⟨-2, -1⟩ a b = .ok (a', b') ∧
      rowsOf ⟨-2, -1⟩ a = [[1]] ∧ rowsOf ⟨-2, -1⟩ b = [[2, 3]] ∧
      rowsOf ⟨-2, -1⟩ a' = [[2]] ∧ rowsOf ⟨-2, -1⟩ b' = [[1, 0]] := by
  refine ⟨_, _, _, _, rfl, rfl, rfl, ?_⟩; decide

/-- `SwapData` exchanges the values of two fixed-width arrays of the same width. -/
theorem swapData_fixed {α : Type} (z : α) (ty : Ty) (hty : ty.layout = .fixed ∨ ty.layout = .staticFixed)
    (a b a' b' : Array α) (va vb : Val α) (ha : Reachable z ty a) (hb : Reachable z ty b)
    (hva : Represents ty a va) (hvb : Represents ty b vb) (hw : va.width = vb.width)
    (hs : swapData ty a b = .ok (a', b')) : Represents ty a' vb ∧ Represents ty b' va := by
  have hne : ty.layout ≠ .errorLayout := by rcases hty with h | h <;> simp [h]
  have hnc : ty.layout ≠ .csr := by rcases hty with h | h <;> simp [h]
  have ia := reachable_inv z hne ha
  have ib := reachable_inv z hne hb
  have wa := represents_width ia hva hnc
  have wb := represents_width ib hvb hnc
  have ra := represents_csr_eq ia hva
  have rb := represents_csr_eq ib hvb
  simp only [swapData, Res.bind_ok_iff, Res.assert_ok_iff] at hs
  obtain ⟨_, hsz, _, _, hs⟩ := hs
  have hs' : a' = { a with data := b.data } ∧ b' = { b with data := a.data } := by
    have := Res.ok.inj hs
    simp only [Prod.mk.injEq] at this
    exact ⟨this.1.symm, this.2.symm⟩
  obtain ⟨rfl, rfl⟩ := hs'
  have sab : stride ty a = stride ty b := by rw [← wa, ← wb, hw]
  have sa : stride ty ({ a with data := b.data } : Array α) = stride ty a := by
    rcases hty with h | h <;> simp [stride, h]
  have sb : stride ty ({ b with data := a.data } : Array α) = stride ty b := by
    rcases hty with h | h <;> simp [stride, h]
  have mk : ∀ (x y : Array α), Inv ty x → Inv ty y → x.size = y.size → stride ty x = stride ty y →
      stride ty ({ x with data := y.data } : Array α) = stride ty x →
      Inv ty ({ x with data := y.data } : Array α) ∧
      valOf ty ({ x with data := y.data } : Array α) = valOf ty y := by
    intro x y ix iy hxy hst hs2
    refine ⟨⟨hne, fun h => ?_, ?_, fun h => absurd h.1 hnc, fun h => absurd h hnc⟩, ?_⟩
    · rw [hs2]; show y.data.length = x.size * stride ty x
      rw [iy.table h, hxy, hst]
    · rintro (hx | hx) <;> rcases hty with h | h <;> rw [h] at hx <;> cases hx
    · simp only [valOf]
      rw [rowsOf_fixed hty, rowsOf_fixed hty, hs2, hst]
      simp only [hxy]
  obtain ⟨i1, v1⟩ := mk a b ia ib hsz.symm sab sa
  obtain ⟨i2, v2⟩ := mk b a ib ia hsz sab.symm sb
  have e1 : valOf ty b = vb := by cases vb; simp only [valOf]; rw [← rb, ← wb]
  have e2 : valOf ty a = va := by cases va; simp only [valOf]; rw [← ra, ← wa]
  exact ⟨by rw [← e1, ← v1]; exact represents_valOf i1, by rw [← e2, ← v2]; exact represents_valOf i2⟩

example : ∃ a b : Array Nat, Reachable 0 ⟨-1, -1⟩ a ∧ Reachable 0 ⟨-1, -1⟩ b ∧
    ∃ p, swapData ⟨-1, -1⟩ a b = .ok p ∧ rowsOf ⟨-1, -1⟩ p.1 = [[0, 2]] ∧ rowsOf ⟨-1, -1⟩ p.2 = [[1, 0]] := by
  have hl : Ty.layout ⟨-1, -1⟩ = .fixed := by decide
  refine ⟨_, _, ⟨[.resize2 true 1 2, .write 0 0 1], rfl, ?_⟩,
    ⟨[.resize2 true 1 2, .write 0 1 2], rfl, ?_⟩, _, rfl, ?_⟩
  · exact ⟨fun _ _ => by simp [Usable, hl], fun a h => ⟨fun _ _ => by simp [Usable], fun _ _ => trivial⟩⟩
  · exact ⟨fun _ _ => by simp [Usable, hl], fun a h => ⟨fun _ _ => by simp [Usable], fun _ _ => trivial⟩⟩
  · decide

/-! ## C02 -/

/-- **C02**. On every reachable CSR array `Compress()` returns, does not change the value, and (unless
there are no rows) leaves the array compressed with the textbook CSR form: the concatenated rows and
the running sums of the row lengths. -/
theorem compress_spec {α : Type} (z : α) (ty : Ty) (hc : ty.layout = .csr) (a : Array α)
    (ha : Reachable z ty a) (v : Val α) (hv : Represents ty a v) :
    ∃ a', compress z ty a = .ok a' ∧ Represents ty a' v ∧
      (v.rows ≠ [] → ifCompressed a' = true ∧ a'.data = v.rows.flatten ∧
        a'.pRowStart = some (rowStarts v.rows)) := by
  have hI := reachable_inv z (by rw [hc]; simp) ha
  obtain ⟨a', h1, h2, h3, h4⟩ := csrCompress_spec z hI hc
  have hrows := represents_csr_eq hI hv
  have hrows' : rowsOf ty a' = v.rows := by rw [hrows]; exact congrArg Val.rows h3
  refine ⟨a', by simp [compress, hc, h1], ?_, ?_⟩
  · exact represents_csr_of_rows h2 hc hrows'
  · intro hne
    have hpos : a.size > 0 := by
      rw [hv.size]; exact List.length_pos_iff.2 hne
    have := compressed_shape h2 hc (h4 hpos)
    rw [hrows'] at this
    exact ⟨h4 hpos, this⟩

/-- **C02**. On every reachable CSR array `Decompress()` returns, does not change the value and
leaves the array not compressed, so that its rows can be resized again. -/
theorem decompress_spec {α : Type} (z : α) (ty : Ty) (hc : ty.layout = .csr) (a : Array α)
    (ha : Reachable z ty a) (v : Val α) (hv : Represents ty a v) :
    ∃ a', decompress ty a = .ok a' ∧ Represents ty a' v ∧ ifCompressed a' = false := by
  have hI := reachable_inv z (by rw [hc]; simp) ha
  obtain ⟨a', h1, h2, h3, h4⟩ := csrDecompress_spec hI hc
  have hrows := represents_csr_eq hI hv
  have hrows' : rowsOf ty a' = v.rows := by rw [hrows]; exact congrArg Val.rows h3
  refine ⟨a', by simp [decompress, hc, h1], ?_, h4⟩
  exact represents_csr_of_rows h2 hc hrows'

example : ∃ a a' : Array Nat, run 0 ⟨-2, -2⟩ Array.empty demoCSR = .ok a ∧
    compress 0 ⟨-2, -2⟩ a = .ok a' ∧ a'.data = [5, 0, 0, 7] ∧ a'.pRowStart = some [0, 1, 2, 4] := by
  refine ⟨_, _, rfl, rfl, ?_⟩; decide

/-! ## C03 -/

/-- **C03**. On every reachable array, element access is checked exactly: `a(i,j)` aborts when `(i,j)`
is not an element, whatever the two integers, and otherwise denotes a storage slot that exists and
holds that element. -/
theorem access_checked {α : Type} (z : α) (ty : Ty) (hty : ValidTy ty) (a : Array α)
    (ha : Reachable z ty a) (v : Val α) (hv : Represents ty a v) (i j : Int) :
    (lookup v.rows i j = none ∧ addr ty a i j = .abort) ∨
    ∃ x l, lookup v.rows i j = some x ∧ addr ty a i j = .ok l ∧ load a l = .ok x := by
  have hI := reachable_inv z hty ha
  have hrows := represents_csr_eq hI hv
  rw [hrows]
  have he := addr_eq hI i j
  cases hx : lookup (rowsOf ty a) i j with
  | none => left; rw [hx] at he; simpa using he
  | some x =>
    right
    rw [hx] at he
    refine ⟨x, _, rfl, by simpa using he, ?_⟩
    have hr := (represents_valOf hI).read i j
    rw [show lookup (valOf ty a).rows i j = some x from hx] at hr
    simp only [atRead, he, Option.isSome_some, if_true, Res.ok_bind] at hr
    exact hr

/-- **C03**. Different elements live in different slots: writing one never changes another. -/
theorem access_injective {α : Type} (z : α) (ty : Ty) (hty : ValidTy ty) (a : Array α)
    (ha : Reachable z ty a) (i j i' j' : Int) (l : Loc)
    (h1 : addr ty a i j = .ok l) (h2 : addr ty a i' j' = .ok l) : i = i' ∧ j = j' := by
  have hI := reachable_inv z hty ha
  rw [addr_eq hI] at h1 h2
  split at h1
  · rename_i hx
    split at h2
    · rename_i hx'
      have n0 : ∀ (p q : Int), (lookup (rowsOf ty a) p q).isSome = true → 0 ≤ p ∧ 0 ≤ q := by
        intro p q h; unfold lookup at h; split at h
        · assumption
        · cases h
      obtain ⟨p1, p2⟩ := n0 _ _ hx
      obtain ⟨q1, q2⟩ := n0 _ _ hx'
      have heq : locOf ty a i.toNat j.toNat = locOf ty a i'.toNat j'.toNat := by
        rw [Res.ok.inj h1, Res.ok.inj h2]
      have hm : ∀ (p q : Int), (lookup (rowsOf ty a) p q).isSome = true → 0 ≤ p → 0 ≤ q → ¬ isUnc ty a →
          p.toNat < a.size ∧ q.toNat < lenOf ty a p.toNat := by
        intro p q h hp hq hu
        obtain ⟨x, hx⟩ := Option.isSome_iff_exists.1 h
        have hx' : (rowsOf ty a)[p.toNat]?.bind (fun row => row[q.toNat]?) = some x := by
          simpa [lookup, hp, hq] using hx
        obtain ⟨row, hrow, hj⟩ := Option.bind_eq_some_iff.1 hx'
        have hi : p.toNat < a.size := by
          have := (List.getElem?_eq_some_iff.1 hrow).1
          rwa [rowsOf_length hI] at this
        refine ⟨hi, ?_⟩
        rw [rowsOf, if_neg hu, tbl_getElem? _ _ _ _ _ hi, Option.some.injEq] at hrow
        rw [← hrow, row_getElem?] at hj
        split at hj
        · assumption
        · cases hj
      by_cases hu : isUnc ty a
      · simp only [locOf, if_pos hu, Loc.unc.injEq] at heq
        omega
      · simp only [locOf, if_neg hu, Loc.flat.injEq] at heq
        obtain ⟨a1, a2⟩ := hm i j hx p1 p2 hu
        obtain ⟨b1, b2⟩ := hm i' j' hx' q1 q2 hu
        have hg := hI.good hu
        have : i.toNat = i'.toNat := by
          rcases Nat.lt_trichotomy i.toNat i'.toNat with h | h | h
          · have := hg.sep _ _ h b1; omega
          · exact h
          · have := hg.sep _ _ h a1; omega
        rw [this] at heq
        omega
    · cases h2
  · cases h1

/-- **C03**. Row pointers agree with element access on every layout with flat storage: if `a[i]`
returns a pointer into the flat buffer and `a(i,j)` is an element, the element is at `a[i] + j`. -/
theorem row_pointer_spec {α : Type} (z : α) (ty : Ty) (hty : ValidTy ty) (a : Array α)
    (ha : Reachable z ty a) (i j : Int) (p : Nat) (l : Loc)
    (hp : rowPtr ty a i = .ok (some p)) (h : addr ty a i j = .ok l) : l = .flat (p + j.toNat) := by
  have hI := reachable_inv z hty ha
  obtain ⟨_, _, hA, hB⟩ := rowPtr_eq hI i _ hp
  have hu : ¬ isUnc ty a := fun hu => by cases hA hu
  have := hB hu
  simp only [Option.some.injEq] at this
  rw [addr_eq hI] at h
  split at h
  · rw [← Res.ok.inj h]; simp [locOf, hu, this]
  · cases h

/-- **C03**. Row access aborts exactly outside `0..size` (`0..size-1` for uncompressed CSR with rows),
and never reaches undefined behaviour. -/
theorem row_access_checked {α : Type} (z : α) (ty : Ty) (hty : ValidTy ty) (a : Array α)
    (ha : Reachable z ty a) (i : Int) :
    ((∃ p, rowPtr ty a i = .ok p) ↔ 0 ≤ i ∧ i ≤ a.size ∧
      (ty.layout = .csr ∧ ifCompressed a = false ∧ a.size ≠ 0 → i < a.size)) ∧
    rowPtr ty a i ≠ .ub := by
  have hI := reachable_inv z hty ha
  by_cases hi : i ≤ a.size ∧ i ≥ 0
  · rw [rowPtr, Res.assert_true _ hi, Res.ok_bind]
    have hlay := hI.lay
    cases hly : ty.layout with
    | errorLayout => exact absurd hly hlay
    | csr =>
      cases hcm : ifCompressed a with
      | true =>
        obtain ⟨st, hst, hok⟩ := hI.comp hly hcm
        obtain ⟨b, hb⟩ := hok.get i.toNat (by omega)
        simp [hst, (vat_ok_iff _ _ _).2 hb, hi]
      | false =>
        obtain ⟨hl, _⟩ := hI.unc ⟨hly, hcm⟩
        by_cases h0 : a.size = 0
        · simp [h0, hi]
          omega
        · by_cases hlt : i < a.size
          · simp [h0, hi, hlt, vat_ok a.dataU i.toNat (by omega)]
          · simp [h0, hi, hlt, Res.assert]
    | _ => simp [hi]
  · have : Res.assert (i ≤ (a.size : Int) ∧ i ≥ 0) = .abort := (Res.assert_abort_iff _).2 hi
    rw [rowPtr, this, Res.abort_bind]
    refine ⟨⟨?_, ?_⟩, by simp⟩
    · rintro ⟨p, hp⟩; cases hp
    · intro h; exact absurd ⟨h.2.1, h.1⟩ hi

example : ∃ a : Array Nat, run 0 ⟨-2, -2⟩ Array.empty demoCSR = .ok a ∧
    addr ⟨-2, -2⟩ a 2 1 = .ok (.unc 2 1) ∧ addr ⟨-2, -2⟩ a 2 2 = .abort ∧
    addr ⟨-2, -2⟩ a (-1) 0 = .abort ∧ addr ⟨-2, -2⟩ a 3 0 = .abort := by
  refine ⟨_, rfl, ?_⟩; decide

example : ∃ a : Array Nat, run 0 ⟨-2, -2⟩ Array.empty (demoCSR ++ [.compress]) = .ok a ∧
    addr ⟨-2, -2⟩ a 2 1 = .ok (.flat 3) ∧ rowPtr ⟨-2, -2⟩ a 2 = .ok (some 2) := by
  refine ⟨_, rfl, ?_⟩; decide

end DNDSR.Arr
