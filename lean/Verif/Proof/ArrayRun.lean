import Verif.Proof.ArrayStep

namespace DNDSR.Arr

variable {α : Type}

theorem valOf_empty (ty : Ty) : valOf ty (Array.empty : Array α) = emptyVal ty := by
  unfold valOf emptyVal
  congr 1
  · unfold rowsOf; split <;> rfl
  · unfold stride; cases ty.layout <;> rfl

theorem run_spec (z : α) {ty : Ty} : ∀ (ops : List (Op α)) (a b : Array α), Inv ty a →
    UsableRun z ty a ops → run z ty a ops = .ok b →
    Inv ty b ∧ SpecRun z ty.layout (valOf ty a) ops (valOf ty b) := by
  intro ops
  induction ops with
  | nil =>
    intro a b h _ hr
    simp only [run, Res.ok.injEq] at hr
    subst hr
    exact ⟨h, .nil _⟩
  | cons op ops ih =>
    intro a b h hu hr
    simp only [run, Res.bind_ok_iff] at hr
    obtain ⟨a', h1, h2⟩ := hr
    obtain ⟨hI, hS⟩ := step_spec z h op (hu.1 _ (represents_valOf h)) h1
    obtain ⟨hI', hS'⟩ := ih a' b hI (hu.2 a' h1) h2
    exact ⟨hI', .cons hS hS'⟩

theorem run_ne_ub (z : α) {ty : Ty} : ∀ (ops : List (Op α)) (a : Array α), Inv ty a →
    UsableRun z ty a ops → run z ty a ops ≠ .ub := by
  intro ops
  induction ops with
  | nil => intro a _ _; simp [run]
  | cons op ops ih =>
    intro a h hu
    rw [run]
    cases h1 : step z ty a op with
    | ok a' =>
      rw [Res.ok_bind]
      exact ih a' (step_spec z h op (hu.1 _ (represents_valOf h)) h1).1 (hu.2 a' h1)
    | abort => simp
    | ub => exact absurd h1 (step_ne_ub z h op)

theorem reachable_inv (z : α) {ty : Ty} (hl : ty.layout ≠ .errorLayout) {a : Array α}
    (h : Reachable z ty a) : Inv ty a := by
  obtain ⟨ops, h1, h2⟩ := h
  exact (run_spec z ops _ a (inv_empty ty hl) h2 h1).1

theorem represents_csr_eq {ty : Ty} {a : Array α} {v : Val α} (h : Inv ty a)
    (hv : Represents ty a v) : v.rows = rowsOf ty a := by
  have := represents_valOf h
  apply lookup_ext
  · rw [← hv.size]; exact this.size
  · intro i hi
    have hi2 : i < (valOf ty a).rows.length := by rw [← this.size, hv.size]; exact hi
    have e1 := hv.rowSize i hi
    have e2 := this.rowSize i hi2
    rw [e1] at e2
    rw [List.getElem?_eq_getElem hi]
    change _ = ((valOf ty a).rows[i]?).map _
    rw [List.getElem?_eq_getElem hi2]
    simpa using e2
  · intro i j
    have e1 := hv.read i j
    have e2 := this.read i j
    rw [e1] at e2
    change _ = lookup (valOf ty a).rows i j
    cases h1 : lookup v.rows (i : Int) j <;> cases h2 : lookup (valOf ty a).rows (i : Int) j <;>
      simp_all

theorem represents_csr_of_rows {ty : Ty} {a : Array α} {v : Val α} (h : Inv ty a)
    (hc : ty.layout = .csr) (hr : rowsOf ty a = v.rows) : Represents ty a v := by
  have := represents_valOf h
  have h2 : Represents ty a ⟨rowsOf ty a, v.width⟩ :=
    ⟨this.size, this.rowSize, fun h => absurd hc h, this.read⟩
  rw [hr] at h2
  exact h2

theorem represents_width {ty : Ty} {a : Array α} {v : Val α} (h : Inv ty a)
    (hv : Represents ty a v) (hc : ty.layout ≠ .csr) : v.width = stride ty a := by
  have e1 := hv.width hc
  have e2 := (represents_valOf h).width hc
  rw [e1] at e2
  exact Res.ok.inj e2

theorem pRowSizes_some {ty : Ty} {a : Array α} (h : Inv ty a)
    (hl : ty.layout = .max ∨ ty.layout = .staticMax) (i : Nat) (hi : i < a.size) :
    ∃ sz, a.pRowSizes = some sz ∧ ∃ s, vat sz i = .ok s := by
  rcases h.sizes hl with ⟨h0, _⟩ | ⟨sz, h0, h1, _⟩
  · omega
  · exact ⟨sz, h0, _, vat_ok sz i (by omega)⟩

theorem step_ok_iff (z : α) {ty : Ty} {a : Array α} (h : Inv ty a) {v : Val α}
    (hv : Represents ty a v) (op : Op α) :
    (∃ a', step z ty a op = .ok a') ↔ Accepts ty.layout (ifCompressed a) v op := by
  have hrows := represents_csr_eq h hv
  have hsz := hv.size
  cases op with
  | resize2 u n r =>
    have := h.lay
    simp only [step, resize2, Accepts]
    cases hly : ty.layout <;> simp [hly] at this ⊢
    · have hw := represents_width h hv (by simp [hly])
      simp only [stride, hly] at hw
      have : 0 ≤ ty.rs := by unfold Ty.layout at hly; grind
      omega
    · have hw := represents_width h hv (by simp [hly])
      simp only [stride, hly] at hw
      have : 0 ≤ ty.rm := by unfold Ty.layout at hly; grind
      omega
  | resize1 u n =>
    simp only [step, resize1, Accepts]
    cases hly : ty.layout <;> simp
  | resizeF n f =>
    simp only [step, resizeF, Accepts]
    cases hly : ty.layout <;> simp
    obtain ⟨s, hs⟩ := sumsGo_get f n 0 0 n (Nat.le_refl _)
    have hv := (vat_ok_iff _ _ _).2 hs
    rw [hv]
    exact ⟨_, s, rfl, rfl⟩
  | resizeRow i n =>
    have hlay := h.lay
    have hrl := rowsOf_length h
    simp only [step, resizeRow, Accepts, ← hsz]
    cases hly : ty.layout with
    | errorLayout => exact absurd hly hlay
    | fixed => simp
    | staticFixed => simp
    | csr =>
      simp only [Res.bind_ok_iff, Res.assert_ok_iff, Res.ok.injEq]
      constructor
      · rintro ⟨_, _, h1, _, h2, _⟩; exact ⟨h2.2, h2.1, h1⟩
      · rintro ⟨h1, h2, h3⟩
        obtain ⟨hl, _⟩ := h.unc ⟨hly, h3⟩
        exact ⟨_, (), h3, (), ⟨h2, h1⟩, _, vat_ok a.dataU i.toNat (by omega), rfl⟩
    | max =>
      have hw := represents_width h hv (by simp [hly])
      simp only [Res.bind_ok_iff, Res.assert_ok_iff, hw]
      constructor
      · rintro ⟨_, _, h1, _, h2, _⟩; exact ⟨h2.2, h2.1, h1⟩
      · rintro ⟨h1, h2, h3⟩
        obtain ⟨sz, hp, s, hs⟩ := pRowSizes_some h (Or.inl hly) i.toNat (by omega)
        refine ⟨{ a with pRowSizes := some (sz.set i.toNat n) }, (), h3, (), ⟨h2, h1⟩, ?_⟩
        simp [hp, hs]
    | staticMax =>
      have hw := represents_width h hv (by simp [hly])
      simp only [Res.bind_ok_iff, Res.assert_ok_iff, hw]
      constructor
      · rintro ⟨_, _, h1, _, h2, _⟩; exact ⟨h2.2, h2.1, h1⟩
      · rintro ⟨h1, h2, h3⟩
        obtain ⟨sz, hp, s, hs⟩ := pRowSizes_some h (Or.inr hly) i.toNat (by omega)
        refine ⟨{ a with pRowSizes := some (sz.set i.toNat n) }, (), h3, (), ⟨h2, h1⟩, ?_⟩
        simp [hp, hs]
  | compress =>
    simp only [step, compress, Accepts]
    by_cases hc : ty.layout = .csr
    · obtain ⟨b, hb, _⟩ := csrCompress_spec z h hc
      simp [hc, hb]
    · cases hly : ty.layout <;> simp_all
  | decompress =>
    simp only [step, decompress, Accepts]
    by_cases hc : ty.layout = .csr
    · obtain ⟨b, hb, _⟩ := csrDecompress_spec h hc
      simp [hc, hb]
    · cases hly : ty.layout <;> simp_all
  | write i j x =>
    simp only [step, atWrite, addr_eq h, Accepts, hrows]
    split
    · rename_i hx; simp [hx]
    · rename_i hx; simp [hx]

theorem flatten_take_drop (u : List (List α)) (st : List Nat) (d : List α)
    (hst : ∀ k, k ≤ u.length → ∃ s, st[k]? = some s)
    (h0 : st[0]? = some 0)
    (hrow : ∀ k (h : k < u.length) b e, st[k]? = some b → st[k + 1]? = some e →
      b ≤ e ∧ u[k] = (d.drop b).take (e - b)) :
    (∀ k, k ≤ u.length → ∀ s, st[k]? = some s → s ≤ d.length → (u.take k).flatten = d.take s) := by
  intro k
  induction k with
  | zero =>
    intro _ s hs hsd
    rw [h0] at hs; cases hs; simp
  | succ k ih =>
    intro hk s hs hsd
    obtain ⟨b, hb⟩ := hst k (by omega)
    obtain ⟨hbe, hr⟩ := hrow k (by omega) b s hb hs
    rw [List.take_succ_eq_append_getElem (by omega), List.flatten_append, ih (by omega) b hb (by omega), hr]
    simp only [List.flatten_cons, List.flatten_nil, List.append_nil]
    rw [← List.take_add]
    congr 1; omega

theorem compressed_shape {ty : Ty} {a : Array α} (h : Inv ty a) (hc : ty.layout = .csr)
    (hcm : ifCompressed a = true) :
    a.data = (rowsOf ty a).flatten ∧ a.pRowStart = some (rowStarts (rowsOf ty a)) := by
  obtain ⟨st, hst, hok⟩ := h.comp hc hcm
  have hnu : ¬ isUnc ty a := by rintro ⟨_, hx⟩; rw [hcm] at hx; cases hx
  have hl := rowsOf_length h
  have key := flatten_take_drop (rowsOf ty a) st a.data
    (fun k hk => hok.get k (by omega)) hok.zero
    (by
      intro k hk b e hb he
      refine ⟨(hok.mono k b e (by omega) hb he).1, ?_⟩
      have : (rowsOf ty a)[k]? = some ((a.data.drop (startOf ty a k)).take (lenOf ty a k)) := by
        rw [rowsOf, if_neg hnu]; exact tbl_getElem? _ _ _ _ _ (by omega)
      rw [List.getElem?_eq_getElem hk, Option.some.injEq] at this
      rw [this]
      simp only [startOf, lenOf, hc, hst, Option.getD_some, hb, he])
  have hle : ∀ k s, k ≤ a.size → st[k]? = some s → s ≤ a.data.length := by
    intro k s hk hs
    exact hok.mono' (a.size - k) k s a.data.length (by omega) hs
      (by rw [Nat.add_sub_cancel' hk]; exact hok.last)
  constructor
  · have := key a.size (by omega) _ hok.last (Nat.le_refl _)
    rw [List.take_length, ← hl, List.take_length] at this
    exact this.symm
  · rw [hst]
    congr 1
    apply List.ext_getElem?
    intro k
    by_cases hk : k ≤ a.size
    · obtain ⟨s, hs⟩ := hok.get k hk
      have := key k (by omega) s hs (hle k s hk hs)
      rw [hs, rowStarts, List.getElem?_map, List.getElem?_range (by omega)]
      simp only [Option.map_some, this, Option.some.injEq, List.length_take]
      have := hle k s hk hs
      omega
    · rw [List.getElem?_eq_none (by rw [hok.len]; omega),
        List.getElem?_eq_none (by simp [rowStarts]; omega)]

theorem rowPtr_eq {ty : Ty} {a : Array α} (h : Inv ty a) (i : Int) (p : Option Nat)
    (hp : rowPtr ty a i = .ok p) : 0 ≤ i ∧ i ≤ a.size ∧
      (isUnc ty a → p = none) ∧ (¬ isUnc ty a → p = some (startOf ty a i.toNat)) := by
  simp only [rowPtr, Res.bind_ok_iff, Res.assert_ok_iff] at hp
  obtain ⟨_, hi, hp⟩ := hp
  refine ⟨hi.2, hi.1, ?_, ?_⟩
  · intro hu
    simp only [hu.1, hu.2] at hp
    simp only [Bool.false_eq_true, if_false] at hp
    split at hp
    · exact (Res.ok.inj hp).symm
    · simp only [Res.bind_ok_iff] at hp
      obtain ⟨_, _, _, _, hp⟩ := hp
      exact (Res.ok.inj hp).symm
  · intro hu
    have hlay := h.lay
    cases hly : ty.layout with
    | errorLayout => exact absurd hly hlay
    | csr =>
      have hcomp : ifCompressed a = true := by
        cases hb : ifCompressed a with
        | true => rfl
        | false => exact absurd ⟨hly, hb⟩ hu
      obtain ⟨st, hst, hok⟩ := h.comp hly hcomp
      simp only [hly, hcomp, if_true, hst, Res.bind_ok_iff] at hp
      obtain ⟨b, hb, hp⟩ := hp
      have := (vat_ok_iff _ _ _).1 hb
      rw [← Res.ok.inj hp]
      simp [startOf, hly, hst, this]
    | _ =>
      simp only [hly] at hp
      rw [← Res.ok.inj hp]
      simp [startOf, hly, stride]

end DNDSR.Arr
