import Verif.Proof.Array

/-! Every mutator of the array model follows the row-list specification. -/

namespace DNDSR.Arr

variable {α : Type}

/-! ### CSR compression -/

def sumsL (cur : Nat) : List (List α) → List Nat
  | [] => []
  | r :: rs => (cur + r.length) :: sumsL (cur + r.length) rs

theorem rowStartsGo_eq (u : List (List α)) : ∀ (n cur i : Nat), i + n ≤ u.length →
    rowStartsGo u cur i n = .ok (sumsL cur ((u.drop i).take n)) := by
  intro n
  induction n with
  | zero => intro cur i _; simp [rowStartsGo, sumsL]
  | succ n ih =>
    intro cur i h
    have hi : i < u.length := by omega
    rw [rowStartsGo, vat_ok u i hi, Res.ok_bind]
    simp only []
    rw [ih (cur + u[i].length) (i + 1) (by omega), Res.ok_bind]
    rw [List.drop_eq_getElem_cons hi, List.take_succ_cons]
    rfl

theorem sumsL_get : ∀ (rows : List (List α)) (cur k : Nat), k ≤ rows.length →
    (cur :: sumsL cur rows)[k]? = some (cur + (rows.take k).flatten.length) := by
  intro rows
  induction rows with
  | nil => intro cur k h; have : k = 0 := by simpa using h
           subst this; simp
  | cons r rs ih =>
    intro cur k h
    cases k with
    | zero => simp
    | succ k =>
      have := ih (cur + r.length) k (by simpa using h)
      simp only [sumsL, List.getElem?_cons_succ, List.take_succ_cons, List.flatten_cons,
        List.length_append]
      rw [this]; congr 1; omega

theorem sumsL_length : ∀ (rows : List (List α)) (cur : Nat), (sumsL cur rows).length = rows.length := by
  intro rows
  induction rows with
  | nil => intro _; rfl
  | cons r rs ih => intro cur; simp [sumsL, ih]

theorem take_succ_flatten_length (u : List (List α)) (k : Nat) (h : k < u.length) :
    (u.take (k + 1)).flatten.length = (u.take k).flatten.length + u[k].length := by
  rw [List.take_succ_eq_append_getElem h, List.flatten_append]; simp

theorem flatten_take_le (u : List (List α)) (k : Nat) : (u.take k).flatten.length ≤ u.flatten.length := by
  conv => rhs; rw [← List.take_append_drop k u, List.flatten_append, List.length_append]
  omega

theorem copyRowsGo_eq (u : List (List α)) (st : List Nat)
    (hst : ∀ k, k ≤ u.length → st[k]? = some (u.take k).flatten.length) :
    ∀ (n i : Nat) (d : List α), i + n = u.length → d.length = u.flatten.length →
      copyRowsGo st u d i n = .ok (d.take (u.take i).flatten.length ++ (u.drop i).flatten) := by
  intro n
  induction n with
  | zero =>
    intro i d hi hd
    have : i = u.length := by omega
    subst this
    simp only [copyRowsGo, List.take_length, List.drop_length, List.flatten_nil, List.append_nil]
    rw [← hd, List.take_length]
  | succ n ih =>
    intro i d hi hd
    have hil : i < u.length := by omega
    have hv := (vat_ok_iff st i _).2 (hst i (by omega))
    have hlen := take_succ_flatten_length u i hil
    have hle := flatten_take_le u (i + 1)
    rw [copyRowsGo, hv, Res.ok_bind, List.getElem?_eq_getElem hil]
    simp only
    have hm : memcpyAt d (u.take i).flatten.length u[i] =
        .ok (d.take (u.take i).flatten.length ++ u[i] ++ d.drop ((u.take i).flatten.length + u[i].length)) := by
      rw [memcpyAt, if_pos (by omega)]
    rw [hm, Res.ok_bind]
    have hl' : (d.take (u.take i).flatten.length ++ u[i] ++
        d.drop ((u.take i).flatten.length + u[i].length)).length = u.flatten.length := by
      simp only [List.length_append, List.length_take, List.length_drop]; omega
    rw [Res.assert_true _ (by rw [hl']; omega), Res.ok_bind, ih (i + 1) _ (by omega) hl']
    congr 1
    rw [hlen, List.take_append_of_le_length
      (by simp only [List.length_append, List.length_take]; omega)]
    rw [List.take_of_length_le (by simp only [List.length_append, List.length_take]; omega)]
    rw [List.drop_eq_getElem_cons hil, List.flatten_cons, List.append_assoc]

theorem tbl_flatten (u : List (List α)) (st len : Nat → Nat)
    (hst : ∀ k, k < u.length → st k = (u.take k).flatten.length)
    (hlen : ∀ k (h : k < u.length), len k = u[k].length) : tbl u.length st len u.flatten = u := by
  apply List.ext_getElem (tbl_length _ _ _ _)
  intro k h1 h2
  rw [tbl_getElem, hst k h2, hlen k h2]
  conv => lhs; arg 2; arg 2; rw [← List.take_append_drop k u, List.flatten_append]
  rw [List.drop_left' rfl, List.drop_eq_getElem_cons h2, List.flatten_cons, List.take_left' rfl]

theorem ifCompressed_true_iff (a : Array α) : ifCompressed a = true ↔ a.size > 0 ∧ a.pRowStart.isSome := by
  unfold ifCompressed; split <;> simp_all

theorem csrCompress_spec (z : α) {ty : Ty} {a : Array α} (h : Inv ty a) (hc : ty.layout = .csr) :
    ∃ a', csrCompress z a = .ok a' ∧ Inv ty a' ∧ valOf ty a' = valOf ty a ∧
      (a.size > 0 → ifCompressed a' = true) := by
  cases hb : ifCompressed a with
  | true => exact ⟨a, by simp [csrCompress, hb], h, rfl, fun _ => hb⟩
  | false =>
    have hu : isUnc ty a := ⟨hc, hb⟩
    obtain ⟨hl, hrow⟩ := h.unc hu
    have h1 := rowStartsGo_eq a.dataU a.size 0 0 (by omega)
    rw [List.drop_zero, List.take_of_length_le (by omega)] at h1
    have hst : ∀ k, k ≤ a.dataU.length →
        (0 :: sumsL 0 a.dataU)[k]? = some (a.dataU.take k).flatten.length := by
      intro k hk; have := sumsL_get a.dataU 0 k hk; simpa using this
    have htot : vat (0 :: sumsL 0 a.dataU) a.size = .ok a.dataU.flatten.length := by
      rw [vat_ok_iff, hst a.size (by omega), List.take_of_length_le (by omega)]
    have hcp := copyRowsGo_eq a.dataU (0 :: sumsL 0 a.dataU) hst a.size 0
      (vresize z a.data a.dataU.flatten.length) (by omega) (vresize_length _ _ _)
    simp only [List.take_zero, List.flatten_nil, List.length_nil, List.nil_append,
      List.drop_zero] at hcp
    refine ⟨{ a with pRowStart := some (0 :: sumsL 0 a.dataU), data := a.dataU.flatten, dataU := [] },
      ?_, ?_, ?_, ?_⟩
    · simp only [csrCompress, hb, h1, htot, hcp, Res.ok_bind]
      simp
    · refine ⟨h.lay, fun hn => absurd hc hn, ?_, ?_, ?_⟩
      · rintro (hx | hx) <;> rw [hc] at hx <;> cases hx
      · rintro ⟨_, hx⟩
        simp only [ifCompressed, Option.isSome_some] at hx
        split at hx
        · cases hx
        · simp; omega
      · intro _ _
        refine ⟨_, rfl, ?_, ?_, ?_, ?_⟩
        · simp [sumsL_length, hl]
        · simp
        · show (0 :: sumsL 0 a.dataU)[a.size]? = _
          rw [hst a.size (by omega), List.take_of_length_le (by omega)]
        · intro i b e hi hbb hee
          have hi' : i < a.size := hi
          rw [hst i (by omega)] at hbb
          rw [hst (i + 1) (by omega)] at hee
          cases hbb; cases hee
          have := take_succ_flatten_length a.dataU i (by omega)
          have hr := hrow _ (List.getElem_mem (show i < a.dataU.length by omega))
          omega
    · unfold valOf
      have hs : ∀ (x : Array α), stride ty x = 0 := by intro x; simp [stride, hc]
      rw [hs, hs]
      congr 1
      rw [rowsOf, rowsOf, if_pos hu]
      by_cases h0 : a.size = 0
      · have : a.dataU = [] := List.eq_nil_of_length_eq_zero (by omega)
        rw [if_pos]
        · exact this.symm
        · exact ⟨hc, by simp [ifCompressed, h0]⟩
      · rw [if_neg]
        · show tbl a.size _ _ _ = _
          rw [← hl]
          apply tbl_flatten
          · intro k hk
            simp only [startOf, hc, Option.getD_some]
            rw [hst k (by omega)]; rfl
          · intro k hk
            simp only [lenOf, hc, Option.getD_some]
            rw [hst k (by omega), hst (k + 1) (by omega)]
            have := take_succ_flatten_length a.dataU k hk
            simp only [Option.getD_some]; omega
        · rintro ⟨_, hx⟩
          simp only [ifCompressed, Option.isSome_some] at hx
          split at hx
          · cases hx
          · omega
    · intro hp
      simp [ifCompressed, hp]

theorem decompressGo_eq (st : List Nat) (d : List α) (N : Nat) (hok : StartsOk st N d.length) :
    ∀ (n i : Nat), i + n ≤ N → decompressGo st d i n = .ok ((List.range' i n).map (fun k =>
      (d.drop (st[k]?.getD 0)).take (st[k + 1]?.getD 0 - st[k]?.getD 0))) := by
  intro n
  induction n with
  | zero => intro i _; simp [decompressGo]
  | succ n ih =>
    intro i hi
    obtain ⟨b, hb⟩ := hok.get i (by omega)
    obtain ⟨e, he⟩ := hok.get (i + 1) (by omega)
    have h1 := (hok.mono i b e (by omega) hb he).1
    have h2 := hok.mono' (N - (i + 1)) (i + 1) e d.length (by omega) he
      (by rw [Nat.add_sub_cancel' (by omega)]; exact hok.last)
    rw [decompressGo, (vat_ok_iff st i b).2 hb, Res.ok_bind, (vat_ok_iff st (i + 1) e).2 he,
      Res.ok_bind, slice, if_pos ⟨h1, h2⟩, Res.ok_bind, ih (i + 1) (by omega), Res.ok_bind]
    rw [List.range'_succ, List.map_cons, hb, he]
    rfl

theorem csrDecompress_spec {ty : Ty} {a : Array α} (h : Inv ty a) (hc : ty.layout = .csr) :
    ∃ a', csrDecompress a = .ok a' ∧ Inv ty a' ∧ valOf ty a' = valOf ty a ∧
      ifCompressed a' = false := by
  cases hb : ifCompressed a with
  | false => exact ⟨a, by simp [csrDecompress, hb], h, rfl, hb⟩
  | true =>
    obtain ⟨st, hst, hok⟩ := h.comp hc hb
    have hnu : ¬ isUnc ty a := by rintro ⟨_, hx⟩; rw [hb] at hx; cases hx
    have hd := decompressGo_eq st a.data a.size hok a.size 0 (by omega)
    have hrows : (List.range' 0 a.size).map (fun k =>
        (a.data.drop (st[k]?.getD 0)).take (st[k + 1]?.getD 0 - st[k]?.getD 0)) = rowsOf ty a := by
      rw [rowsOf, if_neg hnu, tbl, List.range_eq_range']
      apply List.map_congr_left
      intro k _
      simp [startOf, lenOf, hc, hst]
    rw [hrows] at hd
    have hic : ifCompressed ({ a with dataU := rowsOf ty a, data := [], pRowStart := none } : Array α)
        = false := by simp [ifCompressed]
    refine ⟨{ a with dataU := rowsOf ty a, data := [], pRowStart := none }, ?_, ?_, ?_, hic⟩
    · simp [csrDecompress, hb, hst, hd]
    · refine ⟨h.lay, fun hn => absurd hc hn, ?_, ?_, ?_⟩
      · rintro (hx | hx) <;> rw [hc] at hx <;> cases hx
      · intro _
        refine ⟨rowsOf_length h, ?_⟩
        intro row hr
        obtain ⟨k, hk, rfl⟩ := List.mem_iff_getElem.1 hr
        have hk' : k < a.size := by rw [← rowsOf_length h]; exact hk
        obtain ⟨b, hb'⟩ := hok.get k (by omega)
        obtain ⟨e, he⟩ := hok.get (k + 1) (by omega)
        have h1 := (hok.mono k b e hk' hb' he).2
        have hlen : ((rowsOf ty a)[k]).length ≤ e - b := by
          have : (rowsOf ty a)[k]? = some ((a.data.drop (startOf ty a k)).take (lenOf ty a k)) := by
            rw [rowsOf, if_neg hnu]; exact tbl_getElem? _ _ _ _ _ hk'
          rw [List.getElem?_eq_getElem hk, Option.some.injEq] at this
          rw [this]
          simp only [lenOf, hc, hst, Option.getD_some, hb', he, List.length_take]
          omega
        show ((rowsOf ty a)[k]).length < _
        omega
      · intro _ hx; rw [hic] at hx; cases hx
    · unfold valOf
      have hs : ∀ (x : Array α), stride ty x = 0 := by intro x; simp [stride, hc]
      rw [hs, hs]
      congr 1
      rw [rowsOf, if_pos ⟨hc, hic⟩]

/-! ### writes -/

theorem store_spec {ty : Ty} {a : Array α} (h : Inv ty a) (i j : Int) (v : α)
    (hx : (lookup (rowsOf ty a) i j).isSome) :
    Inv ty (store a v (locOf ty a i.toNat j.toNat)) ∧
    valOf ty (store a v (locOf ty a i.toNat j.toNat)) =
      ⟨(rowsOf ty a).modify i.toNat (fun row => row.set j.toNat v), stride ty a⟩ := by
  obtain ⟨x, hx⟩ := Option.isSome_iff_exists.1 hx
  have h0 : 0 ≤ i ∧ 0 ≤ j := by
    unfold lookup at hx; split at hx
    · assumption
    · cases hx
  have hx' : (rowsOf ty a)[i.toNat]?.bind (fun row => row[j.toNat]?) = some x := by
    simpa [lookup, h0] using hx
  obtain ⟨row, hrow, hj⟩ := Option.bind_eq_some_iff.1 hx'
  have hi : i.toNat < a.size := by
    have := (List.getElem?_eq_some_iff.1 hrow).1
    rwa [rowsOf_length h] at this
  by_cases hu : isUnc ty a
  · obtain ⟨hl, hr⟩ := h.unc hu
    simp only [locOf, if_pos hu, store]
    have hu' : isUnc ty ({ a with dataU := a.dataU.modify i.toNat (fun row => row.set j.toNat v) } : Array α) := hu
    refine ⟨⟨h.lay, h.table, h.sizes, ?_, h.comp⟩, ?_⟩
    · intro _
      refine ⟨by simpa using hl, ?_⟩
      intro r hr'
      simp only at hr'
      obtain ⟨k, hk, rfl⟩ := List.mem_iff_getElem.1 hr'
      rw [List.getElem_modify]
      have hkk : k < a.dataU.length := by simpa using hk
      split
      · simpa using hr _ (List.getElem_mem hkk)
      · exact hr _ (List.getElem_mem hkk)
    · simp only [valOf, rowsOf, if_pos hu, if_pos hu']
      rfl
  · simp only [locOf, if_neg hu, store]
    have hu' : ¬ isUnc ty ({ a with data := a.data.set (startOf ty a i.toNat + j.toNat) v } : Array α) := hu
    refine ⟨⟨h.lay, ?_, h.sizes, h.unc, ?_⟩, ?_⟩
    · intro hn
      have h1 := h.table hn
      rw [List.length_set]
      exact h1
    · intro h1 h2; simpa using h.comp h1 h2
    · have hlt : j.toNat < lenOf ty a i.toNat := by
        rw [rowsOf, if_neg hu, tbl_getElem? _ _ _ _ _ hi, Option.some.injEq] at hrow
        rw [← hrow, row_getElem?] at hj
        split at hj
        · assumption
        · cases hj
      have := tbl_write a.size (startOf ty a) (lenOf ty a) a.data (h.good hu) i.toNat j.toNat hi hlt v
      simp only [valOf, rowsOf, if_neg hu, if_neg hu']
      rw [← this]
      rfl

/-! ### resizing TABLE layouts -/

theorem tbl_uniform_flatten (w : Nat) (d : List α) : ∀ n,
    (tbl n (fun i => i * w) (fun _ => w) d).flatten = d.take (n * w) := by
  intro n
  induction n with
  | zero => simp [tbl]
  | succ n ih =>
    have : tbl (n + 1) (fun i => i * w) (fun _ => w) d =
        tbl n (fun i => i * w) (fun _ => w) d ++ [(d.drop (n * w)).take w] := by
      simp [tbl, List.range_succ]
    rw [this, List.flatten_append, ih, Nat.add_mul, Nat.one_mul, List.take_add]
    simp

theorem rowsOf_fixed {ty : Ty} {a : Array α} (hl : ty.layout = .fixed ∨ ty.layout = .staticFixed) :
    rowsOf ty a = tbl a.size (fun i => i * stride ty a) (fun _ => stride ty a) a.data := by
  rw [rowsOf, if_neg (by rintro ⟨h, _⟩; rcases hl with hl | hl <;> rw [hl] at h <;> cases h)]
  congr 1
  · funext i; rcases hl with hl | hl <;> simp [startOf, hl]
  · funext i; rcases hl with hl | hl <;> simp [lenOf, hl]

theorem fixed_resize (z : α) {ty : Ty} {a : Array α} (h : Inv ty a)
    (hl : ty.layout = .fixed ∨ ty.layout = .staticFixed) (n r : Nat) (a' : Array α)
    (hs : a'.size = n) (hd : a'.data = vresize z a.data (n * r)) (hr : stride ty a' = r) :
    Inv ty a' ∧ FixedResize z (valOf ty a) n r (valOf ty a') := by
  have hnc : ty.layout ≠ .csr := by rcases hl with hl | hl <;> rw [hl] <;> simp
  have hI : Inv ty a' := by
    refine ⟨h.lay, ?_, ?_, ?_, ?_⟩
    · intro _; rw [hs, hd, hr, vresize_length]
    · rintro (hx | hx) <;> rcases hl with hl | hl <;> rw [hl] at hx <;> cases hx
    · rintro ⟨hx, _⟩; exact absurd hx hnc
    · intro hx; exact absurd hx hnc
  refine ⟨hI, hr, ?_, ?_, ?_⟩
  · show (rowsOf ty a').length = n
    rw [rowsOf_length hI, hs]
  · intro row hrow
    simp only [valOf, rowsOf_fixed hl] at hrow
    obtain ⟨k, hk, rfl⟩ := List.mem_iff_getElem.1 hrow
    rw [tbl_length] at hk
    rw [tbl_getElem, hr, row_length]
    have := hI.table hnc
    rw [this, hr]
    have : (k + 1) * r ≤ a'.size * r := Nat.mul_le_mul_right _ hk
    rw [Nat.add_mul] at this; omega
  · have e1 : (valOf ty a').rows.flatten = a'.data := by
      simp only [valOf, rowsOf_fixed hl, tbl_uniform_flatten]
      rw [← hI.table hnc, List.take_length]
    have e2 : (valOf ty a).rows.flatten = a.data := by
      simp only [valOf, rowsOf_fixed hl, tbl_uniform_flatten]
      rw [← h.table hnc, List.take_length]
    rw [e1, e2, hd, vresize_eq_padTo]

theorem resizeRowSizes_spec (u : Bool) (p : Option (List Nat)) (n : Nat) :
    ∃ sz, resizeRowSizes u p n = some sz ∧ sz.length = n ∧
      ∀ i, i < n → sz[i]? = some (if u then ((p.getD [])[i]?).getD 0 else 0) := by
  cases u with
  | false => exact ⟨_, rfl, by simp, by intro i hi; simp [hi]⟩
  | true =>
    cases p with
    | none => exact ⟨_, rfl, by simp, by intro i hi; simp [hi]⟩
    | some sz =>
      exact ⟨_, rfl, vresize_length _ _ _, by intro i hi; rw [vresize_getElem? _ _ _ _ hi]; simp⟩

theorem rowsOf_max_get {ty : Ty} {a : Array α} (hl : ty.layout = .max ∨ ty.layout = .staticMax)
    (i : Nat) (hi : i < a.size) : (rowsOf ty a)[i]? =
      some ((a.data.drop (i * stride ty a)).take ((a.pRowSizes.getD [])[i]?.getD 0)) := by
  rw [rowsOf, if_neg (by rintro ⟨h, _⟩; rcases hl with hl | hl <;> rw [hl] at h <;> cases h),
    tbl_getElem? _ _ _ _ _ hi]
  rcases hl with hl | hl <;> simp [startOf, lenOf, hl]

theorem max_resize (z : α) {ty : Ty} {a : Array α} (h : Inv ty a)
    (hl : ty.layout = .max ∨ ty.layout = .staticMax) (u : Bool) (n r : Nat) (a' : Array α)
    (hs : a'.size = n) (hd : a'.data = vresize z a.data (n * r)) (hr : stride ty a' = r)
    (hp : a'.pRowSizes = resizeRowSizes u a.pRowSizes n)
    (hfit : u = true → ∀ i row, i < n → (rowsOf ty a)[i]? = some row → row.length ≤ r) :
    Inv ty a' ∧ MaxResize u (valOf ty a) n r (valOf ty a') := by
  have hnc : ty.layout ≠ .csr := by rcases hl with hl | hl <;> rw [hl] <;> simp
  obtain ⟨sz, hsz, hszl, hszg⟩ := resizeRowSizes_spec u a.pRowSizes n
  rw [hsz] at hp
  have hnu : ∀ x : Array α, ¬ isUnc ty x := fun x hx => hnc hx.1
  -- old row lengths
  have hold : ∀ i, i < a.size → ∃ row, (rowsOf ty a)[i]? = some row ∧
      row.length = (a.pRowSizes.getD [])[i]?.getD 0 := by
    intro i hi
    refine ⟨_, rowsOf_max_get hl i hi, ?_⟩
    have := (h.good (hnu a)).inb i hi
    rcases hl with hl | hl <;> simp only [startOf, lenOf, hl] at this <;> rw [row_length _ _ _ this]
  have hout : ∀ i, a.size ≤ i → (a.pRowSizes.getD [])[i]?.getD 0 = 0 := by
    intro i hi
    rcases h.sizes hl with ⟨_, h0⟩ | ⟨sz0, h0, h1, _⟩
    · simp [h0]
    · rw [h0, Option.getD_some, List.getElem?_eq_none (by omega)]; rfl
  have hle : ∀ i, i < n → u = true → (a.pRowSizes.getD [])[i]?.getD 0 ≤ r := by
    intro i hi hu
    by_cases hi' : i < a.size
    · obtain ⟨row, hrow, hlen⟩ := hold i hi'
      rw [← hlen]; exact hfit hu i row hi hrow
    · rw [hout i (by omega)]; omega
  have hI : Inv ty a' := by
    refine ⟨h.lay, ?_, ?_, ?_, ?_⟩
    · intro _; rw [hs, hd, hr, vresize_length]
    · intro _; right
      refine ⟨sz, hp, by rw [hszl, hs], ?_⟩
      intro s hmem
      obtain ⟨k, hk, rfl⟩ := List.mem_iff_getElem.1 hmem
      have := hszg k (by omega)
      rw [List.getElem?_eq_getElem hk, Option.some.injEq] at this
      rw [this, hr]
      split
      · exact hle k (by omega) (by assumption)
      · omega
    · intro hx; exact absurd hx (hnu _)
    · intro hx; exact absurd hx hnc
  refine ⟨hI, hr, ?_, ?_, ?_⟩
  · show (rowsOf ty a').length = n
    rw [rowsOf_length hI, hs]
  · intro i hi
    simp only [valOf]
    have hi' : i < a'.size := by omega
    rw [rowsOf_max_get hl i hi']
    have hb := (hI.good (hnu a')).inb i hi'
    have hb' : i * stride ty a' + (a'.pRowSizes.getD [])[i]?.getD 0 ≤ a'.data.length := by
      rcases hl with hl | hl <;> simpa only [startOf, lenOf, hl] using hb
    simp only [Option.map_some, Option.some.injEq]
    rw [row_length _ _ _ hb', hp, Option.getD_some, hszg i hi, Option.getD_some]
    split
    · by_cases hia : i < a.size
      · obtain ⟨row, hrow, hlen⟩ := hold i hia
        rw [hrow]; simp [hlen]
      · rw [hout i (by omega), List.getElem?_eq_none (by rw [rowsOf_length h]; omega)]
        rfl
    · rfl
  · intro hu hrw i hi hia
    simp only [valOf] at hrw hia ⊢
    have hia' : i < a.size := by rw [← rowsOf_length h]; exact hia
    rw [rowsOf_max_get hl i (by omega), rowsOf_max_get hl i hia', hp, Option.getD_some, hszg i hi,
      Option.getD_some, hu, if_pos rfl, hr, hrw]
    congr 1
    apply List.ext_getElem?
    intro k
    rw [row_getElem?, row_getElem?]
    split
    · rename_i hk
      rw [hd]
      have hb := (h.good (hnu a)).inb i hia'
      have hb' : i * stride ty a + (a.pRowSizes.getD [])[i]?.getD 0 ≤ a.data.length := by
        rcases hl with hl | hl <;> simpa only [startOf, lenOf, hl] using hb
      have hkr : k < r := Nat.lt_of_lt_of_le hk (hle i hi hu)
      have hin : i * stride ty a + k < n * r := by
        have : (i + 1) * r ≤ n * r := Nat.mul_le_mul_right _ hi
        rw [Nat.add_mul] at this; rw [← hrw]; omega
      rw [vresize_getElem? _ _ _ _ hin]
      rw [List.getElem?_eq_getElem (by omega)]
      simp
    · rfl

/-! ### resizing CSR -/

theorem sumsGo_get (f : Nat → Nat) : ∀ (n cur i k : Nat), k ≤ n →
    ∃ s, (cur :: sumsGo f cur i n)[k]? = some s := by
  intro n
  induction n with
  | zero => intro cur i k hk; have : k = 0 := by omega
            subst this; exact ⟨cur, by simp⟩
  | succ n ih =>
    intro cur i k hk
    cases k with
    | zero => exact ⟨cur, by simp⟩
    | succ k => obtain ⟨s, hs⟩ := ih (cur + f i) (i + 1) k (by omega)
                exact ⟨s, by simpa [sumsGo] using hs⟩

theorem sumsGo_step (f : Nat → Nat) : ∀ (n cur i k b e : Nat), k < n →
    (cur :: sumsGo f cur i n)[k]? = some b → (cur :: sumsGo f cur i n)[k + 1]? = some e →
    e = b + f (i + k) := by
  intro n
  induction n with
  | zero => intro cur i k b e hk; omega
  | succ n ih =>
    intro cur i k b e hk hb he
    cases k with
    | zero => simp [sumsGo] at hb he; subst hb; subst he; rfl
    | succ k =>
      have := ih (cur + f i) (i + 1) k b e (by omega) (by simpa [sumsGo] using hb)
        (by simpa [sumsGo] using he)
      rw [this]; congr 2; omega

theorem sumsGo_length (f : Nat → Nat) : ∀ (n cur i : Nat), (sumsGo f cur i n).length = n := by
  intro n
  induction n with
  | zero => intro _ _; rfl
  | succ n ih => intro cur i; simp [sumsGo, ih]

theorem resizeF_spec (z : α) {ty : Ty} {a : Array α} (h : Inv ty a) (hc : ty.layout = .csr)
    (n : Nat) (f : Nat → Nat) (hf : ∀ i, i < n → f i < int32Max) :
    ∃ a', resizeF z ty a n f = .ok a' ∧ Inv ty a' ∧ (rowsOf ty a').length = n ∧
      ∀ i, i < n → ((rowsOf ty a')[i]?).map List.length = some (f i) := by
  obtain ⟨tot, htot⟩ := sumsGo_get f n 0 0 n (Nat.le_refl _)
  have hv := (vat_ok_iff _ n tot).2 htot
  let st := 0 :: sumsGo f 0 0 n
  let a' : Array α := { a with size := n, pRowSizes := none, dataU := [], pRowStart := some st, data := vresize z a.data tot }
  have hok : StartsOk st n a'.data.length := by
    refine ⟨by simp [st, sumsGo_length], rfl, ?_, ?_⟩
    · rw [vresize_length]; exact htot
    · intro i b e hi hb he
      have := sumsGo_step f n 0 0 i b e hi hb he
      have h2 := hf i hi
      rw [Nat.zero_add] at this
      omega
  have hI : Inv ty a' := by
    refine ⟨h.lay, fun hn => absurd hc hn, ?_, ?_, ?_⟩
    · rintro (hx | hx) <;> rw [hc] at hx <;> cases hx
    · rintro ⟨_, hx⟩
      simp only [a', ifCompressed, Option.isSome_some] at hx
      split at hx
      · cases hx
      · simp only [a', List.length_nil, List.not_mem_nil, false_implies, implies_true, and_true]; omega
    · intro _ _
      exact ⟨st, rfl, hok⟩
  refine ⟨a', ?_, hI, rowsOf_length hI, ?_⟩
  · simp only [resizeF, hc, hv, Res.ok_bind]; rfl
  · intro i hi
    have hnu : ¬ isUnc ty a' := by
      rintro ⟨_, hx⟩
      simp only [a', ifCompressed, Option.isSome_some] at hx
      split at hx
      · cases hx
      · omega
    have hg := (hI.good hnu).inb i hi
    rw [rowsOf, if_neg hnu, tbl_getElem? _ _ _ _ _ (show i < a'.size from hi)]
    simp only [Option.map_some, Option.some.injEq]
    rw [row_length _ _ _ hg]
    obtain ⟨b, hb⟩ := hok.get i (by omega)
    obtain ⟨e, he⟩ := hok.get (i + 1) (by omega)
    have := sumsGo_step f n 0 0 i b e hi hb he
    simp only [lenOf, hc, a', Option.getD_some, hb, he]
    rw [Nat.zero_add] at this
    omega

theorem csr_resize {ty : Ty} {a : Array α} (h : Inv ty a) (hc : ty.layout = .csr)
    (hnc : ifCompressed a = false) (n : Nat) (hz : a.size = 0 → a.pRowStart = none ∨ n = 0) :
    Inv ty ({ a with size := n, dataU := vresize [] a.dataU n } : Array α) ∧
    (rowsOf ty ({ a with size := n, dataU := vresize [] a.dataU n } : Array α)) =
      padTo [] (rowsOf ty a) n := by
  obtain ⟨hl, hrow⟩ := h.unc ⟨hc, hnc⟩
  have hic : ifCompressed ({ a with size := n, dataU := vresize [] a.dataU n } : Array α) = false := by
    have h1 : ¬ (a.size > 0 ∧ a.pRowStart.isSome) := by
      intro hx; rw [(ifCompressed_true_iff a).2 hx] at hnc; cases hnc
    simp only [ifCompressed]
    split
    · rename_i hn
      cases hp : a.pRowStart with
      | none => rfl
      | some st =>
        by_cases h0 : a.size = 0
        · rcases hz h0 with h2 | h2
          · rw [hp] at h2; cases h2
          · omega
        · exact absurd ⟨by omega, by simp [hp]⟩ h1
    · rfl
  have hu : isUnc ty a := ⟨hc, hnc⟩
  have hu' : isUnc ty ({ a with size := n, dataU := vresize [] a.dataU n } : Array α) := ⟨hc, hic⟩
  refine ⟨⟨h.lay, fun hn => absurd hc hn, ?_, ?_, ?_⟩, ?_⟩
  · rintro (hx | hx) <;> rw [hc] at hx <;> cases hx
  · intro _
    refine ⟨vresize_length _ _ _, ?_⟩
    intro row hr
    simp only [vresize, List.mem_append, List.mem_replicate] at hr
    rcases hr with hr | ⟨_, rfl⟩
    · exact hrow row (List.mem_of_mem_take hr)
    · simp [int32Max]
  · intro _ hx; rw [hic] at hx; cases hx
  · rw [rowsOf, if_pos hu', rowsOf, if_pos hu, vresize_eq_padTo]

theorem csr_resizeRow (z : α) {ty : Ty} {a : Array α} (h : Inv ty a) (hc : ty.layout = .csr)
    (hnc : ifCompressed a = false) (i n : Nat) (hn : n < int32Max) :
    Inv ty ({ a with dataU := a.dataU.modify i (fun row => vresize z row n) } : Array α) ∧
    rowsOf ty ({ a with dataU := a.dataU.modify i (fun row => vresize z row n) } : Array α) =
      (rowsOf ty a).modify i (fun row => padTo z row n) := by
  obtain ⟨hl, hrow⟩ := h.unc ⟨hc, hnc⟩
  have hu : isUnc ty a := ⟨hc, hnc⟩
  have hu' : isUnc ty ({ a with dataU := a.dataU.modify i (fun row => vresize z row n) } : Array α) := hu
  refine ⟨⟨h.lay, fun hn => absurd hc hn, ?_, ?_, h.comp⟩, ?_⟩
  · rintro (hx | hx) <;> rw [hc] at hx <;> cases hx
  · intro _
    refine ⟨by simpa using hl, ?_⟩
    intro r hr'
    simp only at hr'
    obtain ⟨k, hk, rfl⟩ := List.mem_iff_getElem.1 hr'
    rw [List.getElem_modify]
    have hkk : k < a.dataU.length := by simpa using hk
    split
    · rw [vresize_length]; exact hn
    · exact hrow _ (List.getElem_mem hkk)
  · rw [rowsOf, if_pos hu', rowsOf, if_pos hu]
    show a.dataU.modify i (fun row => vresize z row n) = _
    have : (fun row : List α => vresize z row n) = fun row => padTo z row n := by
      funext row; exact vresize_eq_padTo z row n
    rw [this]

theorem max_resizeRow {ty : Ty} {a : Array α} (h : Inv ty a)
    (hl : ty.layout = .max ∨ ty.layout = .staticMax) (i n : Nat) (sz : List Nat)
    (hp : a.pRowSizes = some sz) (hi : i < a.size) (hn : n ≤ stride ty a) :
    Inv ty ({ a with pRowSizes := some (sz.set i n) } : Array α) ∧
    ∃ row', row'.length = n ∧
      rowsOf ty ({ a with pRowSizes := some (sz.set i n) } : Array α) = (rowsOf ty a).set i row' ∧
      ∀ row, (rowsOf ty a)[i]? = some row → row'.take row.length = row.take n := by
  have hnc : ty.layout ≠ .csr := by rcases hl with hl | hl <;> rw [hl] <;> simp
  have hnu : ∀ x : Array α, ¬ isUnc ty x := fun x hx => hnc hx.1
  let a' : Array α := { a with pRowSizes := some (sz.set i n) }
  have hstr : stride ty a' = stride ty a := by rcases hl with hl | hl <;> simp [stride, hl, a']
  obtain ⟨hszl, hszle⟩ : sz.length = a.size ∧ ∀ s ∈ sz, s ≤ stride ty a := by
    rcases h.sizes hl with ⟨h0, _⟩ | ⟨sz0, h0, h1, h2⟩
    · omega
    · rw [hp] at h0; cases h0; exact ⟨h1, h2⟩
  have hI : Inv ty a' := by
    refine ⟨h.lay, ?_, ?_, ?_, ?_⟩
    · intro hx; rw [hstr]; exact h.table hx
    · intro _; right
      refine ⟨_, rfl, by simp [hszl, a'], ?_⟩
      intro s hs
      rw [hstr]
      rcases List.mem_or_eq_of_mem_set hs with hs | rfl
      · exact hszle s hs
      · exact hn
    · intro hx; exact absurd hx (hnu _)
    · intro hx; exact absurd hx hnc
  refine ⟨hI, ((a.data.drop (i * stride ty a)).take n), ?_, ?_, ?_⟩
  · have hb := (hI.good (hnu a')).inb i hi
    have hb' : i * stride ty a' + (a'.pRowSizes.getD [])[i]?.getD 0 ≤ a'.data.length := by
      rcases hl with hl | hl <;> simpa only [startOf, lenOf, hl] using hb
    rw [row_length]
    rw [hstr] at hb'
    simpa [a', hszl, hi] using hb'
  · show rowsOf ty a' = _
    apply List.ext_getElem?
    intro k
    by_cases hk : k < a.size
    · rw [rowsOf_max_get (a := a') hl k hk, hstr, List.getElem?_set]
      by_cases hik : i = k
      · subst hik
        rw [if_pos rfl, if_pos (by rw [rowsOf_length h]; exact hk)]
        simp [a', hszl, hi]
      · rw [if_neg hik, rowsOf_max_get hl k hk]
        simp only [a', Option.getD_some, hp]
        rw [List.getElem?_set_ne hik]
    · rw [List.getElem?_eq_none (by rw [rowsOf_length hI]; show a.size ≤ k; omega),
        List.getElem?_eq_none (by rw [List.length_set, rowsOf_length h]; omega)]
  · intro row hrow
    rw [rowsOf_max_get hl i hi, Option.some.injEq] at hrow
    subst hrow
    have hb := (h.good (hnu a)).inb i hi
    have hb' : i * stride ty a + (a.pRowSizes.getD [])[i]?.getD 0 ≤ a.data.length := by
      rcases hl with hl | hl <;> simpa only [startOf, lenOf, hl] using hb
    rw [row_length _ _ _ hb', List.take_take, List.take_take, Nat.min_comm]

/-! ### one step -/

theorem stride_static {ty : Ty} (a b : Array α)
    (h : ty.layout = .staticFixed ∨ ty.layout = .staticMax) : stride ty a = stride ty b := by
  rcases h with h | h <;> simp [stride, h]

theorem step_spec (z : α) {ty : Ty} {a a' : Array α} (h : Inv ty a) (op : Op α)
    (hu : Usable ty a (valOf ty a) op) (hs : step z ty a op = .ok a') :
    Inv ty a' ∧ SpecStep z ty.layout (valOf ty a) op (valOf ty a') := by
  cases op with
  | resize2 u n r =>
    simp only [step, resize2] at hs
    cases hly : ty.layout with
    | errorLayout => exact absurd hly h.lay
    | csr =>
      simp only [hly, Res.bind_ok_iff, Res.assert_ok_iff, Res.ok.injEq, exists_and_left, exists_const] at hs
      obtain ⟨hnc, rfl⟩ := hs
      simp only [Usable, hly] at hu
      exact csr_resize h hly hnc n hu
    | fixed =>
      simp only [hly, Res.ok.injEq] at hs; subst hs
      exact fixed_resize z h (Or.inl hly) n r _ rfl rfl (by simp [stride, hly])
    | max =>
      simp only [hly, Res.ok.injEq] at hs; subst hs
      simp only [Usable, hly] at hu
      exact max_resize z h (Or.inl hly) u n r _ rfl rfl (by simp [stride, hly]) rfl hu
    | staticFixed =>
      simp only [hly, Res.bind_ok_iff, Res.assert_ok_iff, Res.ok.injEq, exists_and_left, exists_const] at hs
      obtain ⟨hr, rfl⟩ := hs
      have hr' : ty.rs.toNat = r := by omega
      exact fixed_resize z h (Or.inr hly) n r _ rfl (by rw [hr']) (by simp [stride, hly, hr'])
    | staticMax =>
      simp only [hly, Res.bind_ok_iff, Res.assert_ok_iff, Res.ok.injEq, exists_and_left, exists_const] at hs
      obtain ⟨hr, rfl⟩ := hs
      have hr' : ty.rm.toNat = r := by omega
      refine max_resize z h (Or.inr hly) u n r _ rfl (by rw [hr']) (by simp [stride, hly, hr']) rfl ?_
      intro _ i row _ hrow
      have hi : i < a.size := by
        have := (List.getElem?_eq_some_iff.1 hrow).1
        rwa [rowsOf_length h] at this
      rw [rowsOf_max_get (Or.inr hly) i hi, Option.some.injEq] at hrow
      subst hrow
      rcases h.sizes (Or.inr hly) with ⟨h0, _⟩ | ⟨sz0, h0, h1, h2⟩
      · omega
      · have := h2 sz0[i] (List.getElem_mem (by omega))
        simp only [stride, hly, hr'] at this
        rw [List.length_take, h0, Option.getD_some, List.getElem?_eq_getElem (by omega), Option.getD_some]
        omega
  | resize1 u n =>
    simp only [step, resize1] at hs
    cases hly : ty.layout with
    | errorLayout => exact absurd hly h.lay
    | csr =>
      simp only [hly, Res.bind_ok_iff, Res.assert_ok_iff, Res.ok.injEq, exists_and_left, exists_const] at hs
      obtain ⟨hnc, rfl⟩ := hs
      simp only [Usable, hly] at hu
      exact csr_resize h hly hnc n hu
    | fixed => simp [hly] at hs
    | max => simp [hly] at hs
    | staticFixed =>
      simp only [hly, Res.ok.injEq] at hs; subst hs
      have hst : stride ty a = ty.rs.toNat := by simp [stride, hly]
      exact fixed_resize z h (Or.inr hly) n (stride ty a) _ rfl (by rw [hst])
        (stride_static _ _ (Or.inl hly))
    | staticMax =>
      simp only [hly, Res.ok.injEq] at hs; subst hs
      have hst : stride ty a = ty.rm.toNat := by simp [stride, hly]
      refine max_resize z h (Or.inr hly) u n (stride ty a) _ rfl (by rw [hst])
        (stride_static _ _ (Or.inr hly)) rfl ?_
      intro _ i row _ hrow
      have hi : i < a.size := by
        have := (List.getElem?_eq_some_iff.1 hrow).1
        rwa [rowsOf_length h] at this
      rw [rowsOf_max_get (Or.inr hly) i hi, Option.some.injEq] at hrow
      subst hrow
      rcases h.sizes (Or.inr hly) with ⟨h0, _⟩ | ⟨sz0, h0, h1, h2⟩
      · omega
      · have := h2 sz0[i] (List.getElem_mem (by omega))
        rw [List.length_take, h0, Option.getD_some, List.getElem?_eq_getElem (by omega), Option.getD_some]
        omega
  | resizeF n f =>
    by_cases hc : ty.layout = .csr
    · obtain ⟨b, hb, hI, h1, h2⟩ := resizeF_spec z h hc n f hu
      have : a' = b := by
        have hs' : resizeF z ty a n f = .ok a' := hs
        rw [hb] at hs'; exact (Res.ok.inj hs').symm
      subst this
      exact ⟨hI, hc, h1, h2⟩
    · exfalso
      simp only [step, resizeF] at hs
      cases hly : ty.layout <;> simp_all
  | resizeRow i n =>
    simp only [step, resizeRow] at hs
    have hrl := rowsOf_length h
    cases hly : ty.layout with
    | errorLayout => exact absurd hly h.lay
    | csr =>
      simp only [hly, Res.bind_ok_iff, Res.assert_ok_iff, Res.ok.injEq, exists_and_left, exists_const] at hs
      obtain ⟨hnc, hi, row, _, rfl⟩ := hs
      obtain ⟨h1, h2⟩ := csr_resizeRow z h hly hnc i.toNat n hu
      exact ⟨h1, hi.2, by rw [show (valOf ty a).rows.length = a.size from hrl]; exact hi.1, h2⟩
    | fixed => simp [hly] at hs
    | staticFixed => simp [hly] at hs
    | max =>
      simp only [hly, Res.bind_ok_iff, Res.assert_ok_iff, exists_and_left, exists_const] at hs
      obtain ⟨hn, hi, hs⟩ := hs
      cases hp : a.pRowSizes with
      | none => simp [hp] at hs
      | some sz =>
        simp only [hp, Res.bind_ok_iff, Res.ok.injEq] at hs
        obtain ⟨_, _, rfl⟩ := hs
        obtain ⟨h1, h2⟩ := max_resizeRow h (Or.inl hly) i.toNat n sz hp (by omega) hn
        refine ⟨h1, hi.2, by rw [show (valOf ty a).rows.length = a.size from hrl]; exact hi.1, ?_, hn, h2⟩
        simp [valOf, stride, hly]
    | staticMax =>
      simp only [hly, Res.bind_ok_iff, Res.assert_ok_iff, exists_and_left, exists_const] at hs
      obtain ⟨hn, hi, hs⟩ := hs
      cases hp : a.pRowSizes with
      | none => simp [hp] at hs
      | some sz =>
        simp only [hp, Res.bind_ok_iff, Res.ok.injEq] at hs
        obtain ⟨_, _, rfl⟩ := hs
        obtain ⟨h1, h2⟩ := max_resizeRow h (Or.inr hly) i.toNat n sz hp (by omega) hn
        refine ⟨h1, hi.2, by rw [show (valOf ty a).rows.length = a.size from hrl]; exact hi.1, ?_, hn, h2⟩
        simp [valOf, stride, hly]
  | compress =>
    by_cases hc : ty.layout = .csr
    · obtain ⟨b, hb, hI, hv, _⟩ := csrCompress_spec z h hc
      have : a' = b := by
        simp only [step, compress, hc] at hs
        rw [hb] at hs; exact (Res.ok.inj hs).symm
      subst this
      exact ⟨hI, hv⟩
    · have : a' = a := by
        simp only [step, compress] at hs
        cases hly : ty.layout <;> simp_all
      subst this
      exact ⟨h, rfl⟩
  | decompress =>
    by_cases hc : ty.layout = .csr
    · obtain ⟨b, hb, hI, hv, _⟩ := csrDecompress_spec h hc
      have : a' = b := by
        simp only [step, decompress, hc] at hs
        rw [hb] at hs; exact (Res.ok.inj hs).symm
      subst this
      exact ⟨hI, hv⟩
    · have : a' = a := by
        simp only [step, decompress] at hs
        cases hly : ty.layout <;> simp_all
      subst this
      exact ⟨h, rfl⟩
  | write i j x =>
    simp only [step, atWrite, addr_eq h] at hs
    by_cases hx : (lookup (rowsOf ty a) i j).isSome
    · simp only [hx, if_true, Res.ok_bind, Res.ok.injEq] at hs
      subst hs
      obtain ⟨h1, h2⟩ := store_spec h i j x hx
      refine ⟨h1, ?_⟩
      rw [h2]
      exact ⟨rfl, hx, rfl⟩
    · simp [hx] at hs

theorem vat_bind_ne_ub {β γ : Type} (l : List β) (k : Nat) (f : β → Res γ) (hf : ∀ b, f b ≠ .ub) :
    (vat l k >>= f) ≠ .ub := by
  unfold vat; cases l[k]? <;> simp [hf]

theorem assert_bind_ne_ub {γ : Type} (c : Prop) [Decidable c] (f : Unit → Res γ) (hf : ∀ b, f b ≠ .ub) :
    (Res.assert c >>= f) ≠ .ub := by
  unfold Res.assert; split <;> simp [hf]

theorem step_ne_ub (z : α) {ty : Ty} {a : Array α} (h : Inv ty a) (op : Op α) : step z ty a op ≠ .ub := by
  cases op with
  | resize2 u n r =>
    have := h.lay
    simp only [step, resize2]
    cases hly : ty.layout <;> first | (simp; done) | exact absurd hly this | exact assert_bind_ne_ub _ _ (by simp)
  | resize1 u n =>
    simp only [step, resize1]
    cases hly : ty.layout <;> first | (simp; done) | exact assert_bind_ne_ub _ _ (by simp)
  | resizeF n f =>
    simp only [step, resizeF]
    cases hly : ty.layout <;> first | (simp; done) | exact vat_bind_ne_ub _ _ _ (by simp)
  | resizeRow i n =>
    simp only [step, resizeRow]
    cases hly : ty.layout <;> try simp
    all_goals
      first
      | (refine ⟨?_⟩; done)
      | (intros; exact vat_ne_ub _ _)
      | (intros; try (split <;> simp [vat_ne_ub]); try (simp [vat_ne_ub]))
  | compress =>
    by_cases hc : ty.layout = .csr
    · obtain ⟨b, hb, _⟩ := csrCompress_spec z h hc
      simp [step, compress, hc, hb]
    · simp only [step, compress]
      cases hly : ty.layout <;> simp_all
  | decompress =>
    by_cases hc : ty.layout = .csr
    · obtain ⟨b, hb, _⟩ := csrDecompress_spec h hc
      simp [step, decompress, hc, hb]
    · simp only [step, decompress]
      cases hly : ty.layout <;> simp_all
  | write i j x =>
    simp only [step, atWrite, addr_eq h]
    split <;> simp

end DNDSR.Arr
