import Verif.Spec.Serializer

/-! # Lemmas for byte codecs and distributed datasets -/

namespace DNDSR.Ser

/-! ## base64 -/

theorem b64_table : ∀ n : Fin 64, b64Val (b64Char n) = n ∧ b64Char n ≠ '=' := by decide +kernel

theorem b64Val_char {n : Nat} (h : n < 64) : b64Val (b64Char n) = n := (b64_table ⟨n, h⟩).1
theorem b64Char_ne {n : Nat} (h : n < 64) : b64Char n ≠ '=' := (b64_table ⟨n, h⟩).2

theorem b64_roundtrip : ∀ (l : List Nat), (∀ b ∈ l, b < 256) → b64Decode (b64Encode l) = .ok l
  | [], _ => rfl
  | [a], h => by
    have ha := h a (by simp)
    simp only [b64Encode, b64Decode, b64Val_char (show a / 4 < 64 by omega),
      b64Val_char (show a % 4 * 16 < 64 by omega)]
    rw [if_pos (by omega)]
    simp
    omega
  | [a, b], h => by
    have ha := h a (by simp)
    have hb := h b (by simp)
    simp only [b64Encode, b64Decode, b64Val_char (show a / 4 < 64 by omega),
      b64Val_char (show a % 4 * 16 + b / 16 < 64 by omega), b64Val_char (show b % 16 * 4 < 64 by omega),
      b64Char_ne (show b % 16 * 4 < 64 by omega), if_false]
    rw [if_pos (by omega), if_pos (by omega)]
    simp
    omega
  | a :: b :: c :: rest, h => by
    have ha := h a (by simp)
    have hb := h b (by simp)
    have hc := h c (by simp)
    have ih := b64_roundtrip rest (fun x hx => h x (by simp [hx]))
    simp only [b64Encode, b64Decode, b64Val_char (show a / 4 < 64 by omega),
      b64Val_char (show a % 4 * 16 + b / 16 < 64 by omega),
      b64Val_char (show b % 16 * 4 + c / 64 < 64 by omega), b64Val_char (show c % 64 < 64 by omega),
      b64Char_ne (show b % 16 * 4 + c / 64 < 64 by omega), b64Char_ne (show c % 64 < 64 by omega), if_false]
    rw [if_pos (by omega), if_pos (by omega), if_pos (by omega), ih]
    simp
    omega

/-! ## slabs -/

variable {α : Type}

theorem writeSlab_get {ds ds' : List (Option α)} {off : Nat} {v : List α} (h : writeSlab ds off v = .ok ds') :
    ds'.length = ds.length ∧
    ∀ i : Nat, ds'[i]? = if off ≤ i ∧ i < off + v.length then (v[i - off]?).map some else ds[i]? := by
  unfold writeSlab at h
  split at h
  · next hle =>
    injection h with h
    subst h
    constructor
    · simp; omega
    · intro i
      by_cases h1 : i < off
      · rw [List.append_assoc, List.getElem?_append_left (by simp; omega), if_neg (by omega)]
        simp [h1]
      · by_cases h2 : i < off + v.length
        · rw [List.getElem?_append_left (by simp; omega), List.getElem?_append_right (by simp; omega),
            if_pos (by omega)]
          simp [Nat.min_eq_left (show off ≤ ds.length by omega)]
        · rw [List.getElem?_append_right (by simp; omega), if_neg (by omega)]
          simp only [List.length_append, List.length_take, List.length_map, List.getElem?_drop,
            Nat.min_eq_left (show off ≤ ds.length by omega)]
          congr 1; omega
  · cases h

/-! ## tiling -/

/-- start of rank `r` in the concatenation -/
def startAt (locals : List (List α)) (r : Nat) : Nat := ((locals.take r).map List.length).sum

theorem startAt_succ (locals : List (List α)) (r : Nat) (h : r < locals.length) :
    startAt locals (r + 1) = startAt locals r + sizeOf locals r := by
  unfold startAt sizeOf
  rw [List.take_succ, List.map_append, List.sum_append_nat]
  simp [List.getElem?_eq_getElem h]

theorem startAt_length (locals : List (List α)) : startAt locals locals.length = scanTotal locals := by
  simp [startAt, scanTotal]

theorem startAt_le (locals : List (List α)) (r : Nat) (h : r < locals.length) :
    startAt locals r + sizeOf locals r ≤ scanTotal locals := by
  rw [← startAt_succ locals r h]
  unfold startAt scanTotal
  have e : (locals.map List.length).sum =
      ((locals.take (r + 1)).map List.length).sum + ((locals.drop (r + 1)).map List.length).sum := by
    rw [← List.sum_append_nat, ← List.map_append, List.take_append_drop]
  omega

theorem flatten_at (locals : List (List α)) : ∀ (r j : Nat), r < locals.length → j < sizeOf locals r →
    locals.flatten[startAt locals r + j]? = (locals[r]?.getD [])[j]? := by
  induction locals with
  | nil => intro r j h; simp at h
  | cons l ls ih =>
    intro r j hr hj
    cases r with
    | zero =>
      simp only [sizeOf, List.getElem?_cons_zero, Option.getD_some] at hj
      simp [startAt, List.getElem?_append_left hj]
    | succ r =>
      have e : startAt (l :: ls) (r + 1) = l.length + startAt ls r := by simp [startAt]
      rw [e, List.flatten_cons, List.getElem?_append_right (by omega)]
      have := ih r j (by simpa using hr) (by simpa [sizeOf] using hj)
      simp only [List.getElem?_cons_succ]
      rw [← this]
      congr 1; omega

theorem owner_exists (locals : List (List α)) : ∀ i, i < scanTotal locals →
    ∃ r, r < locals.length ∧ startAt locals r ≤ i ∧ i < startAt locals r + sizeOf locals r := by
  induction locals with
  | nil => intro i h; simp [scanTotal] at h
  | cons l ls ih =>
    intro i h
    by_cases hi : i < l.length
    · exact ⟨0, by simp, by simp [startAt], by simpa [startAt, sizeOf] using hi⟩
    · obtain ⟨r, h1, h2, h3⟩ := ih (i - l.length) (by simp [scanTotal] at h ⊢; omega)
      have e : startAt (l :: ls) (r + 1) = l.length + startAt ls r := by simp [startAt]
      refine ⟨r + 1, by simpa using h1, by omega, ?_⟩
      rw [e]
      simp only [sizeOf, List.getElem?_cons_succ] at h3 ⊢
      omega

theorem scanOffset_eq (locals : List (List α)) (r : Nat) (h : r < locals.length) :
    scanOffset locals r = startAt locals r := by
  have := startAt_succ locals r h
  unfold scanOffset
  unfold startAt sizeOf at this
  unfold startAt
  omega

/-- every written cell holds its final value, and the cells of the ranks that wrote are written -/
structure WInv (locals : List (List α)) (s : DistSet α) (done : List Nat) : Prop where
  dlen : s.data.length = scanTotal locals
  olen : s.offs.length = locals.length + 1
  dval : ∀ (i : Nat) (x : α), s.data[i]? = some (some x) → locals.flatten[i]? = some x
  oval : ∀ (i o : Nat), s.offs[i]? = some (some o) → o = startAt locals i
  ddone : ∀ r ∈ done, ∀ (i : Nat), startAt locals r ≤ i → i < startAt locals r + sizeOf locals r →
    s.data[i]? = (locals.flatten[i]?).map some
  odone : ∀ r ∈ done, s.offs[r]? = some (some (startAt locals r)) ∧
    (r = locals.length - 1 → s.offs[locals.length]? = some (some (scanTotal locals)))

theorem writeRank_inv {locals : List (List α)} {s : DistSet α} {done : List Nat} (h : WInv locals s done)
    (hd : ∀ r ∈ done, r < locals.length) (r : Nat) (hr : r < locals.length) :
    ∃ s', writeRank locals.length s r (startAt locals r) (scanTotal locals) (locals[r]?.getD []) = .ok s' ∧
      WInv locals s' (r :: done) := by
  have hle := startAt_le locals r hr
  have h1 : ∃ d, writeSlab s.data (startAt locals r) (locals[r]?.getD []) = .ok d := by
    unfold writeSlab
    rw [if_pos (by rw [h.dlen]; exact hle)]
    exact ⟨_, rfl⟩
  obtain ⟨d, hd1⟩ := h1
  generalize how : (if r = locals.length - 1 then [startAt locals r, scanTotal locals] else [startAt locals r]) = ow
  have h2 : ∃ o, writeSlab s.offs r ow = .ok o := by
    unfold writeSlab
    rw [if_pos (by rw [h.olen, ← how]; split <;> simp <;> omega)]
    exact ⟨_, rfl⟩
  obtain ⟨o, ho1⟩ := h2
  obtain ⟨dl, dg⟩ := writeSlab_get hd1
  obtain ⟨ol, og⟩ := writeSlab_get ho1
  have hfin : ∀ i : Nat, startAt locals r ≤ i → i < startAt locals r + sizeOf locals r →
      (locals[r]?.getD [])[i - startAt locals r]? = locals.flatten[i]? := by
    intro i h3 h4
    rw [← flatten_at locals r (i - startAt locals r) hr (by omega)]
    congr 1; omega
  have hows : ∀ i : Nat, r ≤ i → i < r + ow.length → ow[i - r]? = some (startAt locals i) := by
    intro i h3 h4
    subst how
    split at h4
    · next hl =>
      rw [if_pos hl]
      simp only [List.length_cons, List.length_nil] at h4
      by_cases e : i = r
      · subst e; simp
      · have e2 : i = locals.length := by omega
        have e3 : i - r = 1 := by omega
        rw [e3, e2, startAt_length]; rfl
    · next hl =>
      rw [if_neg hl]
      simp only [List.length_cons, List.length_nil] at h4
      have e : i = r := by omega
      subst e; simp
  have howlen : 1 ≤ ow.length := by subst how; split <;> simp
  refine ⟨⟨d, o⟩, ?_, ?_⟩
  · simp only [writeRank, hd1, how, ho1, Res.ok_bind]
  · refine ⟨by simp [dl, h.dlen], by simp [ol, h.olen], ?_, ?_, ?_, ?_⟩
    · intro i x hx
      simp only [dg] at hx
      split at hx
      · next hi =>
        rw [hfin i hi.1 hi.2] at hx
        simpa using hx
      · exact h.dval i x hx
    · intro i v hv
      simp only [og] at hv
      split at hv
      · next hi =>
        rw [hows i hi.1 hi.2] at hv
        simpa using hv.symm
      · exact h.oval i v hv
    · intro q hq i h3 h4
      simp only [dg]
      split
      · next hi => rw [hfin i hi.1 hi.2]
      · next hi =>
        rcases List.mem_cons.1 hq with rfl | hq
        · exact absurd ⟨h3, h4⟩ hi
        · exact h.ddone q hq i h3 h4
    · intro q hq
      simp only [og]
      rcases List.mem_cons.1 hq with rfl | hq
      · constructor
        · rw [if_pos (by omega), hows q (by omega) (by omega)]; rfl
        · intro hl
          have : ow.length = 2 := by subst how; simp [hl]
          rw [if_pos (by omega), hows _ (by omega) (by omega), startAt_length]; rfl
      · obtain ⟨h5, h6⟩ := h.odone q hq
        constructor
        · split
          · next hi => rw [hows q hi.1 hi.2]; rfl
          · exact h5
        · intro hl
          split
          · next hi => rw [hows _ hi.1 hi.2, startAt_length]; rfl
          · exact h6 hl

theorem writeRanks_inv {locals : List (List α)} (offOf : Nat → Nat)
    (hoff : ∀ r, r < locals.length → offOf r = startAt locals r) (order : List Nat) :
    ∀ (s : DistSet α) (done : List Nat), WInv locals s done → (∀ r ∈ done, r < locals.length) →
    (∀ r ∈ order, r < locals.length) →
    ∃ s', writeRanks offOf (scanTotal locals) locals s order = .ok s' ∧ WInv locals s' (order.reverse ++ done) := by
  induction order with
  | nil => intro s done h _ _; exact ⟨s, rfl, by simpa using h⟩
  | cons r rs ih =>
    intro s done h hd ho
    have hr := ho r (by simp)
    obtain ⟨s1, h1, h2⟩ := writeRank_inv h hd r hr
    obtain ⟨s2, h3, h4⟩ := ih s1 (r :: done) h2 (by
      intro q hq
      rcases List.mem_cons.1 hq with rfl | hq
      · exact hr
      · exact hd q hq) (fun q hq => ho q (by simp [hq]))
    refine ⟨s2, ?_, by simpa using h4⟩
    simp only [writeRanks, hoff r hr, h1, Res.ok_bind, h3]

theorem writeDist_final {locals : List (List α)} (hne : locals ≠ []) (offOf : Nat → Nat)
    (hoff : ∀ r, r < locals.length → offOf r = startAt locals r) (order : List Nat)
    (ho : Schedule locals.length order) :
    writeDist offOf (scanTotal locals) locals order =
      .ok ⟨locals.flatten.map some, (List.range (locals.length + 1)).map (fun r => some (startAt locals r))⟩ := by
  have h0 : WInv locals ⟨List.replicate (scanTotal locals) none, List.replicate (locals.length + 1) none⟩ [] := by
    refine ⟨by simp, by simp, ?_, ?_, by simp, by simp⟩
    · intro i x hx
      rw [List.getElem?_replicate] at hx
      split at hx <;> simp at hx
    · intro i x hx
      rw [List.getElem?_replicate] at hx
      split at hx <;> simp at hx
  obtain ⟨s, h1, h2⟩ := writeRanks_inv offOf hoff order _ [] h0 (by simp) (fun r hr => (ho r).1 hr)
  unfold writeDist
  rw [h1]
  have hlen : locals.length ≠ 0 := by simpa using hne
  obtain ⟨d, o⟩ := s
  congr 1
  have hd : d = locals.flatten.map some := by
    apply List.ext_getElem?
    intro i
    by_cases hi : i < scanTotal locals
    · obtain ⟨r, hr, h3, h4⟩ := owner_exists locals i hi
      have := h2.ddone r (by simp [(ho r).2 hr]) i h3 h4
      rw [List.getElem?_map]; exact this
    · rw [List.getElem?_eq_none (by have := h2.dlen; simp only at this; omega), List.getElem?_eq_none]
      rw [List.length_map, List.length_flatten]; unfold scanTotal at hi; omega
  have ho' : o = (List.range (locals.length + 1)).map (fun r => some (startAt locals r)) := by
    apply List.ext_getElem?
    intro i
    by_cases hi : i < locals.length
    · rw [(h2.odone i (by simp [(ho i).2 hi])).1]
      simp [List.getElem?_range (show i < locals.length + 1 by omega)]
    · by_cases hi2 : i = locals.length
      · subst hi2
        rw [(h2.odone (locals.length - 1) (by
          simp only [List.append_nil, List.mem_reverse]; exact (ho _).2 (by omega))).2 rfl]
        simp [startAt_length]
      · rw [List.getElem?_eq_none (by have := h2.olen; simp at this; omega), List.getElem?_eq_none (by simp; omega)]
  subst hd ho'
  rfl

theorem readParts_final {locals : List (List α)} (r : Nat) (hr : r < locals.length) :
    readParts locals.length r
      ⟨locals.flatten.map some, (List.range (locals.length + 1)).map (fun r => some (startAt locals r))⟩ =
      .ok ((locals[r]?.getD []).map some, scanTotal locals, startAt locals r) := by
  have hle := startAt_le locals r hr
  have hs := startAt_succ locals r hr
  have hfl : locals.flatten.length = scanTotal locals := by simp [scanTotal, List.length_flatten]
  unfold readParts
  rw [Res.assert_true _ (by simp), Res.ok_bind]
  have h1 : readSlab ((List.range (locals.length + 1)).map (fun r => some (startAt locals r))) r 2 =
      .ok [some (startAt locals r), some (startAt locals (r + 1))] := by
    unfold readSlab
    rw [if_pos (by simp; omega)]
    congr 1
    apply List.ext_getElem?
    intro i
    rw [List.getElem?_take]
    split
    · next hi =>
      rw [List.getElem?_drop, List.getElem?_map, List.getElem?_range (by omega)]
      rcases (show i = 0 ∨ i = 1 by omega) with rfl | rfl <;> simp
    · next hi =>
      rw [List.getElem?_eq_none (by simp; omega)]
  rw [h1, Res.ok_bind]
  simp only []
  rw [Res.assert_true _ (by omega), Res.ok_bind]
  have e : startAt locals (r + 1) - startAt locals r = sizeOf locals r := by omega
  have h2 : readSlab (locals.flatten.map some) (startAt locals r) (sizeOf locals r) =
      .ok ((locals[r]?.getD []).map some) := by
    unfold readSlab
    rw [if_pos (by simp only [List.length_map, hfl]; exact hle)]
    congr 1
    apply List.ext_getElem?
    intro i
    rw [List.getElem?_take]
    split
    · next hi =>
      rw [List.getElem?_drop, List.getElem?_map, flatten_at locals r i hr hi, List.getElem?_map]
    · next hi =>
      rw [List.getElem?_eq_none (by simpa [sizeOf] using hi)]
  rw [e, h2, Res.ok_bind, List.length_map, hfl]

end DNDSR.Ser
