import Verif.Proof.ArrayRun
import Verif.Model.Transformer
import Verif.Proof.GhostMap2

/-! Storage rows of an array with flat storage: helper lemmas for the ghost communication. -/

namespace DNDSR.Arr

variable {α : Type}

/-- an array whose elements, if any, are in flat storage -/
structure Flat (ty : Ty) (a : Array α) : Prop where
  inv : Inv ty a
  nu : a.size > 0 → ¬ isUnc ty a

/-- length of the storage of row `i` -/
def slenOf (ty : Ty) (a : Array α) (i : Nat) : Nat := startOf ty a (i + 1) - startOf ty a i

/-- storage of row `i` -/
def srow (ty : Ty) (a : Array α) (i : Nat) : List α := (a.data.drop (startOf ty a i)).take (slenOf ty a i)

theorem startOf_table {ty : Ty} (hc : ty.layout ≠ .csr) (a : Array α) (i : Nat) :
    startOf ty a i = i * stride ty a := by
  unfold startOf; split
  · exact absurd (by assumption) hc
  · rfl

theorem slenOf_table {ty : Ty} (hc : ty.layout ≠ .csr) (a : Array α) (i : Nat) :
    slenOf ty a i = stride ty a := by
  rw [slenOf, startOf_table hc, startOf_table hc, Nat.add_mul]; omega

theorem lenOf_csr {ty : Ty} (hc : ty.layout = .csr) (a : Array α) (i : Nat) :
    lenOf ty a i = slenOf ty a i := by
  simp [lenOf, slenOf, startOf, hc]

theorem lenOf_fixed {ty : Ty} (hc : ty.layout = .fixed ∨ ty.layout = .staticFixed) (a : Array α) (i : Nat) :
    lenOf ty a i = stride ty a := by
  rcases hc with h | h <;> simp [lenOf, h]

theorem Flat.comp {ty : Ty} {a : Array α} (h : Flat ty a) (hc : ty.layout = .csr) (hs : 0 < a.size) :
    ∃ st, a.pRowStart = some st ∧ ifCompressed a = true ∧ StartsOk st a.size a.data.length := by
  have hcomp : ifCompressed a = true := by
    cases hb : ifCompressed a with
    | true => rfl
    | false => exact absurd ⟨hc, hb⟩ (h.nu hs)
  obtain ⟨st, h1, h2⟩ := h.inv.comp hc hcomp
  exact ⟨st, h1, hcomp, h2⟩

theorem Flat.start_zero {ty : Ty} {a : Array α} (h : Flat ty a) (hs : 0 < a.size) : startOf ty a 0 = 0 := by
  by_cases hc : ty.layout = .csr
  · obtain ⟨st, h1, _, h2⟩ := h.comp hc hs
    simp [startOf, hc, h1, h2.zero]
  · rw [startOf_table hc]; simp

theorem Flat.start_last {ty : Ty} {a : Array α} (h : Flat ty a) (hs : 0 < a.size) :
    startOf ty a a.size = a.data.length := by
  by_cases hc : ty.layout = .csr
  · obtain ⟨st, h1, _, h2⟩ := h.comp hc hs
    simp [startOf, hc, h1, h2.last]
  · rw [startOf_table hc, h.inv.table hc]

theorem Flat.start_mono {ty : Ty} {a : Array α} (h : Flat ty a) (i j : Nat) (hij : i ≤ j) (hj : j ≤ a.size) :
    startOf ty a i ≤ startOf ty a j := by
  by_cases hs : 0 < a.size
  · by_cases hc : ty.layout = .csr
    · obtain ⟨st, h1, _, h2⟩ := h.comp hc hs
      obtain ⟨b, hb⟩ := h2.get i (by omega)
      obtain ⟨e, he⟩ := h2.get j hj
      have := h2.mono' (j - i) i b e (by omega) hb (by rw [Nat.add_sub_cancel' hij]; exact he)
      simpa [startOf, hc, h1, hb, he] using this
    · rw [startOf_table hc, startOf_table hc]
      exact Nat.mul_le_mul_right _ hij
  · have : i = j := by omega
    subst this; exact Nat.le_refl _

theorem Flat.start_le {ty : Ty} {a : Array α} (h : Flat ty a) (i : Nat) (hs : 0 < a.size) (hi : i ≤ a.size) :
    startOf ty a i ≤ a.data.length := by
  rw [← h.start_last hs]; exact h.start_mono i _ hi (Nat.le_refl _)

theorem Flat.start_succ {ty : Ty} {a : Array α} (h : Flat ty a) (i : Nat) (hi : i < a.size) :
    startOf ty a (i + 1) = startOf ty a i + slenOf ty a i := by
  have := h.start_mono i (i + 1) (by omega) hi
  unfold slenOf; omega

theorem Flat.len_le {ty : Ty} {a : Array α} (h : Flat ty a) (i : Nat) (hi : i < a.size) :
    lenOf ty a i ≤ slenOf ty a i := by
  by_cases hc : ty.layout = .csr
  · rw [lenOf_csr hc]; exact Nat.le_refl _
  · rw [slenOf_table hc]
    have hlay := h.inv.lay
    cases hly : ty.layout with
    | errorLayout => exact absurd hly hlay
    | csr => exact absurd hly hc
    | fixed => rw [lenOf_fixed (Or.inl hly)]; exact Nat.le_refl _
    | staticFixed => rw [lenOf_fixed (Or.inr hly)]; exact Nat.le_refl _
    | max =>
      rcases h.inv.sizes (Or.inl hly) with ⟨h0, _⟩ | ⟨sz, hsz, hl, hle⟩
      · omega
      · simp only [lenOf, hly, hsz, Option.getD_some]
        rw [List.getElem?_eq_getElem (by omega)]; exact hle _ (List.getElem_mem _)
    | staticMax =>
      rcases h.inv.sizes (Or.inr hly) with ⟨h0, _⟩ | ⟨sz, hsz, hl, hle⟩
      · omega
      · simp only [lenOf, hly, hsz, Option.getD_some]
        rw [List.getElem?_eq_getElem (by omega)]; exact hle _ (List.getElem_mem _)

theorem Flat.srow_length {ty : Ty} {a : Array α} (h : Flat ty a) (i : Nat) (hi : i < a.size) :
    (srow ty a i).length = slenOf ty a i := by
  have h1 := h.start_le (i + 1) (by omega) hi
  rw [h.start_succ i hi] at h1
  simp [srow]; omega

/-- a row is the beginning of its storage -/
theorem Flat.row {ty : Ty} {a : Array α} (h : Flat ty a) (i : Nat) (hi : i < a.size) :
    (rowsOf ty a)[i]? = some ((srow ty a i).take (lenOf ty a i)) := by
  rw [rowsOf, if_neg (h.nu (by omega)), tbl_getElem? _ _ _ _ _ hi, srow, List.take_take,
    Nat.min_eq_left (h.len_le i hi)]

theorem Flat.rowSize {ty : Ty} {a : Array α} (h : Flat ty a) (i : Nat) (hi : i < a.size) :
    rowSize ty a (i : Int) = .ok (lenOf ty a i) := by
  obtain ⟨row, h1, h2⟩ := rowSize_eq h.inv i hi
  rw [h.row i hi] at h1
  rw [h2, ← Option.some.inj h1, List.length_take, h.srow_length i hi, Nat.min_eq_left (h.len_le i hi)]

theorem Flat.rowPtr {ty : Ty} {a : Array α} (h : Flat ty a) (i : Nat) (hi : i ≤ a.size) (hs : 0 < a.size) :
    rowPtr ty a (i : Int) = .ok (some (startOf ty a i)) := by
  have hi2 : ((i : Int) ≤ a.size ∧ (i : Int) ≥ 0) := by omega
  simp only [Arr.rowPtr]
  rw [Res.assert_true _ hi2, Res.ok_bind]
  have hlay := h.inv.lay
  cases hly : ty.layout with
  | errorLayout => exact absurd hly hlay
  | csr =>
    obtain ⟨st, h1, hc, h2⟩ := h.comp hly hs
    obtain ⟨b, hb⟩ := h2.get i hi
    simp [hc, h1, (vat_ok_iff st i b).2 hb, startOf, hly, hb]
  | _ => simp [startOf, hly, stride]

theorem rowPtr_empty {ty : Ty} {a : Array α} (h : Inv ty a) (hs : a.size = 0) :
    ∃ p, rowPtr ty a 0 = .ok p ∧ (p = none ∨ p = some 0) := by
  have hlay := h.lay
  simp only [Arr.rowPtr]
  rw [Res.assert_true _ (by omega), Res.ok_bind]
  cases hly : ty.layout with
  | errorLayout => exact absurd hly hlay
  | csr => simp [ifCompressed, hs]
  | _ => simp

/-- reading a row through the public query -/
theorem atRead_row {ty : Ty} {a : Array α} (h : Inv ty a) (i : Nat) (j : Int) (row : List α)
    (hr : (rowsOf ty a)[i]? = some row) :
    atRead ty a (i : Int) j = (match (if 0 ≤ j then row[j.toNat]? else none) with
      | some x => Res.ok x
      | none => Res.abort) := by
  rw [(represents_valOf h).read]
  have : lookup (valOf ty a).rows (i : Int) j = (if 0 ≤ j then row[j.toNat]? else none) := by
    show lookup (rowsOf ty a) (i : Int) j = _
    unfold lookup
    by_cases hj : 0 ≤ j
    · rw [if_pos (by omega), if_pos hj, Int.toNat_natCast, hr, Option.bind_some]
    · rw [if_neg (by omega), if_neg hj]
  rw [this]
  generalize (if 0 ≤ j then row[j.toNat]? else none) = o
  cases o <;> rfl

/-- two arrays with equal rows answer alike -/
theorem read_of_row_eq {ty : Ty} {a b : Array α} (ha : Inv ty a) (hb : Inv ty b) (i k : Nat)
    (row : List α) (h1 : (rowsOf ty a)[i]? = some row) (h2 : (rowsOf ty b)[k]? = some row) :
    Arr.rowSize ty a (i : Int) = Arr.rowSize ty b (k : Int) ∧
    ∀ j, atRead ty a (i : Int) j = atRead ty b (k : Int) j := by
  constructor
  · obtain ⟨r1, e1, e2⟩ := rowSize_eq ha i (by
      have := (List.getElem?_eq_some_iff.1 h1).1; rwa [rowsOf_length ha] at this)
    obtain ⟨r2, e3, e4⟩ := rowSize_eq hb k (by
      have := (List.getElem?_eq_some_iff.1 h2).1; rwa [rowsOf_length hb] at this)
    rw [h1] at e1; rw [h2] at e3; cases e1; cases e3
    rw [e2, e4]
  · intro j; rw [atRead_row ha i j row h1, atRead_row hb k j row h2]

/-! ### changing the data only -/

/-- `b` is `a` with other elements -/
def SameShape (a b : Array α) : Prop := ∃ d, d.length = a.data.length ∧ b = { a with data := d }

theorem SameShape.refl (a : Array α) : SameShape a a := ⟨a.data, rfl, rfl⟩

theorem SameShape.trans {a b c : Array α} (h1 : SameShape a b) (h2 : SameShape b c) : SameShape a c := by
  obtain ⟨d, hd, rfl⟩ := h1
  obtain ⟨e, he, rfl⟩ := h2
  exact ⟨e, by rw [he]; exact hd, rfl⟩

theorem SameShape.size {a b : Array α} (h : SameShape a b) : b.size = a.size := by
  obtain ⟨d, _, rfl⟩ := h; rfl

theorem SameShape.len {a b : Array α} (h : SameShape a b) : b.data.length = a.data.length := by
  obtain ⟨d, hd, rfl⟩ := h; exact hd

theorem SameShape.startOf {ty : Ty} {a b : Array α} (h : SameShape a b) (i : Nat) :
    startOf ty b i = startOf ty a i := by
  obtain ⟨d, _, rfl⟩ := h; rfl

theorem SameShape.lenOf {ty : Ty} {a b : Array α} (h : SameShape a b) (i : Nat) :
    lenOf ty b i = lenOf ty a i := by
  obtain ⟨d, _, rfl⟩ := h; rfl

theorem SameShape.slenOf {ty : Ty} {a b : Array α} (h : SameShape a b) (i : Nat) :
    slenOf ty b i = slenOf ty a i := by
  obtain ⟨d, _, rfl⟩ := h; rfl

theorem SameShape.flat {ty : Ty} {a b : Array α} (h : SameShape a b) (hf : Flat ty a) : Flat ty b := by
  obtain ⟨d, hd, rfl⟩ := h
  refine ⟨⟨hf.inv.lay, ?_, ?_, ?_, ?_⟩, hf.nu⟩
  · intro hc; show d.length = _; rw [hd]; exact hf.inv.table hc
  · exact hf.inv.sizes
  · exact hf.inv.unc
  · intro h1 h2
    obtain ⟨st, h3, h4⟩ := hf.inv.comp h1 h2
    exact ⟨st, h3, by show StartsOk st a.size d.length; rw [hd]; exact h4⟩

/-- element writes keep the shape of an array with flat storage -/
theorem write_sameShape {z : α} {ty : Ty} {a a' : Array α} (hf : Flat ty a) (i j : Int) (v : α)
    (h : step z ty a (.write i j v) = .ok a') : SameShape a a' := by
  simp only [step, atWrite, Res.bind_ok_iff, Res.ok.injEq] at h
  obtain ⟨l, hl, rfl⟩ := h
  rw [addr_eq hf.inv] at hl
  split at hl
  · rename_i hx
    have hl' := Res.ok.inj hl
    have hs : 0 < a.size := by
      rcases Nat.eq_zero_or_pos a.size with h0 | h0
      · exfalso
        have hlen := rowsOf_length hf.inv
        rw [h0, List.length_eq_zero_iff] at hlen
        rw [hlen] at hx
        unfold lookup at hx
        split at hx <;> simp at hx
      · exact h0
    rw [locOf, if_neg (hf.nu hs)] at hl'
    rw [← hl']
    exact ⟨_, by simp, rfl⟩
  · cases hl

/-- a program of element writes -/
def Writes (ops : List (Op α)) : Prop := ∀ op ∈ ops, ∃ i j v, op = .write i j v

theorem writes_sameShape {z : α} {ty : Ty} : ∀ (ops : List (Op α)) (a a' : Array α), Flat ty a →
    Writes ops → run z ty a ops = .ok a' → SameShape a a' := by
  intro ops
  induction ops with
  | nil => intro a a' _ _ h; cases h; exact SameShape.refl _
  | cons op ops ih =>
    intro a a' hf hw h
    simp only [run, Res.bind_ok_iff] at h
    obtain ⟨b, h1, h2⟩ := h
    obtain ⟨i, j, v, rfl⟩ := hw op (by simp)
    have hb := write_sameShape hf i j v h1
    exact hb.trans (ih b a' (hb.flat hf) (fun op ho => hw op (List.mem_cons_of_mem _ ho)) h2)

end DNDSR.Arr
