import Verif.Proof.TransCreate

/-! Delivery of the messages of a pull and of a push. -/

namespace DNDSR.Tran

open DNDSR.Arr hiding Array
open DNDSR.IMap

variable {α : Type}

/-! ### memcpy -/

theorem memcpy_ok (d msg : List α) (p : Nat) (h : p + msg.length ≤ d.length) :
    memcpyAt d p msg = .ok (d.take p ++ msg ++ d.drop (p + msg.length)) := by
  rw [memcpyAt, if_pos h]

theorem memcpy_length (d msg : List α) (p : Nat) (h : p + msg.length ≤ d.length) :
    (d.take p ++ msg ++ d.drop (p + msg.length)).length = d.length := by
  simp; omega

theorem memcpy_get (d msg : List α) (p k : Nat) (h : p + msg.length ≤ d.length) :
    (d.take p ++ msg ++ d.drop (p + msg.length))[k]? =
      if p ≤ k ∧ k < p + msg.length then msg[k - p]? else d[k]? := by
  have hp : (d.take p).length = p := by simp; omega
  rw [List.append_assoc, List.getElem?_append, hp]
  by_cases h1 : k < p
  · rw [if_pos h1, if_neg (by omega), List.getElem?_take_of_lt h1]
  · rw [if_neg h1, List.getElem?_append]
    by_cases h2 : k - p < msg.length
    · rw [if_pos h2, if_pos (by omega)]
    · rw [if_neg h2, if_neg (by omega), List.getElem?_drop]
      congr 1; omega

/-- the part of the destination hit by the copy -/
theorem memcpy_in (d msg : List α) (p x n : Nat) (h : p + msg.length ≤ d.length) (hx : x + n ≤ msg.length) :
    ((d.take p ++ msg ++ d.drop (p + msg.length)).drop (p + x)).take n = (msg.drop x).take n := by
  apply List.ext_getElem?
  intro j
  rw [List.getElem?_take, List.getElem?_take, List.getElem?_drop, List.getElem?_drop, memcpy_get _ _ _ _ h]
  by_cases hj : j < n
  · rw [if_pos hj, if_pos hj, if_pos (by omega)]
    congr 1; omega
  · rw [if_neg hj, if_neg hj]

/-- the part not hit -/
theorem memcpy_out (d msg : List α) (p x n : Nat) (h : p + msg.length ≤ d.length)
    (hx : x + n ≤ p ∨ p + msg.length ≤ x) :
    ((d.take p ++ msg ++ d.drop (p + msg.length)).drop x).take n = (d.drop x).take n := by
  apply List.ext_getElem?
  intro j
  rw [List.getElem?_take, List.getElem?_take, List.getElem?_drop, List.getElem?_drop, memcpy_get _ _ _ _ h]
  by_cases hj : j < n
  · rw [if_pos hj, if_pos hj, if_neg (by omega)]
  · rw [if_neg hj, if_neg hj]

/-! ### gathering rows -/

theorem gather_rows {ty : Ty} {fa : Arr.Array α} (hf : Flat ty fa) : ∀ (ls : List Nat),
    (∀ l ∈ ls, l < fa.size) →
    gather fa.data (ls.map (fun l => (startOf ty fa l, slenOf ty fa l))) =
      .ok ((ls.map (srow ty fa)).flatten) := by
  intro ls
  induction ls with
  | nil => intro _; rfl
  | cons l ls ih =>
    intro h
    have hl := h l (by simp)
    have h1 := hf.start_le (l + 1) (by omega) hl
    rw [hf.start_succ l hl] at h1
    simp only [List.map_cons, gather]
    rw [block, if_pos h1, Res.ok_bind, ih (fun k hk => h k (by simp [hk])), Res.ok_bind]
    rfl

/-- a block of consecutive rows is the concatenation of its rows -/
theorem rows_block {ty : Ty} {so : Arr.Array α} (hf : Flat ty so) : ∀ (n b : Nat), b + n ≤ so.size →
    (so.data.drop (startOf ty so b)).take (startOf ty so (b + n) - startOf ty so b) =
      ((List.range' b n).map (srow ty so)).flatten := by
  intro n
  induction n with
  | zero => intro b _; simp
  | succ n ih =>
    intro b hb
    have h1 := ih (b + 1) (by omega)
    have h2 := (sum_slen hf n (b + 1) (by omega)).2
    have h3 := hf.start_succ b (by omega)
    rw [List.range'_succ, List.map_cons, List.flatten_cons, ← h1, srow]
    rw [show b + (n + 1) = b + 1 + n by omega]
    have h4 : startOf ty so (b + 1 + n) - startOf ty so b =
        slenOf ty so b + (startOf ty so (b + 1 + n) - startOf ty so (b + 1)) := by omega
    rw [h4, List.take_add, List.drop_drop, h3]

/-- prefix sums of storage lengths -/
theorem rows_prefix {ty : Ty} {so : Arr.Array α} (hf : Flat ty so) (L : List (List α)) (b : Nat)
    (hb : b + L.length ≤ so.size) (hlen : ∀ i x, L[i]? = some x → x.length = slenOf ty so (b + i)) :
    ∀ i, i ≤ L.length → (((L.take i).map List.length).sum = startOf ty so (b + i) - startOf ty so b) := by
  intro i hi
  rw [← (sum_slen hf i b (by omega)).1]
  congr 1
  apply List.ext_getElem?
  intro j
  rw [List.getElem?_map, List.getElem?_map]
  by_cases hj : j < i
  · rw [List.getElem?_take_of_lt hj, List.getElem?_range' hj]
    have : L[j]? = some (L[j]'(by omega)) := by simp
    rw [this]
    simp [hlen j _ this]
  · rw [List.getElem?_eq_none (by simp; omega), List.getElem?_eq_none (by simp; omega)]
    rfl

/-! ### changing one array of the world -/

theorem set_get {β : Type} (l : List β) (s t : Nat) (x y : β) (hs : l[s]? = some y) :
    (l.set s x)[t]? = if t = s then some x else l[t]? := by
  rw [List.getElem?_set]
  have : s < l.length := (List.getElem?_eq_some_iff.1 hs).1
  by_cases h : s = t
  · subst h; rw [if_pos rfl, if_pos rfl, if_pos this]
  · rw [if_neg h, if_neg (Ne.symm h)]

/-- one pulled message: what the receiver's storage rows become -/
theorem pull_rows {ty : Ty} {so so' : Arr.Array α} (hso : Flat ty so) (L : List (List α)) (b : Nat)
    (hb : b + L.length ≤ so.size) (hlen : ∀ i x, L[i]? = some x → x.length = slenOf ty so (b + i))
    (d : List α) (hd : d = so.data.take (startOf ty so b) ++ L.flatten ++ so.data.drop (startOf ty so b + L.flatten.length))
    (hso' : so' = { so with data := d }) (hL : 0 < L.length) :
    SameShape so so' ∧
    (∀ i x, L[i]? = some x → srow ty so' (b + i) = x) ∧
    (∀ k, k < so.size → k < b ∨ b + L.length ≤ k → srow ty so' k = srow ty so k) := by
  have hpre := rows_prefix hso L b hb hlen
  have htot : L.flatten.length = startOf ty so (b + L.length) - startOf ty so b := by
    rw [List.length_flatten, ← hpre L.length (Nat.le_refl _), List.take_length]
  have hm1 := hso.start_mono b (b + L.length) (by omega) hb
  have hin : startOf ty so b + L.flatten.length ≤ so.data.length := by
    have := hso.start_le (b + L.length) (by omega) hb
    omega
  have hsame : SameShape so so' := ⟨d, by rw [hd]; exact memcpy_length _ _ _ hin, hso'⟩
  refine ⟨hsame, ?_, ?_⟩
  · intro i x hx
    have hi : i < L.length := (List.getElem?_eq_some_iff.1 hx).1
    have hxi : L[i] = x := (List.getElem?_eq_some_iff.1 hx).2
    rw [srow, hsame.startOf, hsame.slenOf, hso', hd]
    have h1 := hpre i (by omega)
    have h1' := hpre (i + 1) (by omega)
    have h2 := hso.start_mono b (b + i) (by omega) (by omega)
    have h3 := hso.start_succ (b + i) (by omega)
    have h4 := hlen i x hx
    have h5 := hso.start_mono (b + i + 1) (b + L.length) (by omega) (by omega)
    rw [show startOf ty so (b + i) = startOf ty so b + (startOf ty so (b + i) - startOf ty so b) by omega,
      memcpy_in _ _ _ _ _ hin (by omega), ← h1, ← h4, ← hxi]
    rw [← List.length_flatten]
    exact flatten_block L i hi
  · intro k hk hor
    rw [srow, hsame.startOf, hsame.slenOf, hso', hd]
    rw [memcpy_out _ _ _ _ _ hin]
    · rfl
    · rcases hor with hor | hor
      · left
        have := hso.start_mono (k + 1) b (by omega) (by omega)
        have := hso.start_succ k hk
        omega
      · right
        have := hso.start_mono (b + L.length) k hor (by omega)
        omega

/-- `w` with other elements in its sons -/
structure SonsShape (w w' : World α) : Prop where
  fathers : w'.fathers = w.fathers
  sl : w'.sons.length = w.sons.length
  sons : ∀ (s : Nat) (so so' : Arr.Array α), w.sons[s]? = some so → w'.sons[s]? = some so' → SameShape so so'

/-- `w` with other elements -/
structure Shape (w w' : World α) : Prop where
  fl : w'.fathers.length = w.fathers.length
  sl : w'.sons.length = w.sons.length
  fathers : ∀ (r : Nat) (fa fa' : Arr.Array α), w.fathers[r]? = some fa → w'.fathers[r]? = some fa' → SameShape fa fa'
  sons : ∀ (s : Nat) (so so' : Arr.Array α), w.sons[s]? = some so → w'.sons[s]? = some so' → SameShape so so'

theorem Shape.refl (w : World α) : Shape w w := by
  refine ⟨rfl, rfl, ?_, ?_⟩
  · intro r fa fa' h1 h2; rw [h1] at h2; cases h2; exact SameShape.refl _
  · intro r fa fa' h1 h2; rw [h1] at h2; cases h2; exact SameShape.refl _

theorem get_of_len {β γ : Type} {l : List β} {m : List γ} (h : m.length = l.length) {i : Nat} {y : γ}
    (hy : m[i]? = some y) : ∃ x, l[i]? = some x := by
  have : i < m.length := (List.getElem?_eq_some_iff.1 hy).1
  exact ⟨l[i]'(by omega), by simp⟩

theorem Shape.trans {w1 w2 w3 : World α} (h : Shape w1 w2) (g : Shape w2 w3) : Shape w1 w3 := by
  refine ⟨by rw [g.fl, h.fl], by rw [g.sl, h.sl], ?_, ?_⟩
  · intro r fa fa' h1 h2
    obtain ⟨x, hx⟩ := get_of_len g.fl.symm.symm h2
    exact (h.fathers r fa x h1 hx).trans (g.fathers r x fa' hx h2)
  · intro r fa fa' h1 h2
    obtain ⟨x, hx⟩ := get_of_len g.sl.symm.symm h2
    exact (h.sons r fa x h1 hx).trans (g.sons r x fa' hx h2)

theorem Wired.shape {ty : Ty} {lens : List Nat} {maps : List Map} {w w' : World α} {types : List Types}
    (h : Wired ty lens maps w types) (hs : Shape w w') : Wired ty lens maps w' types := by
  refine ⟨by rw [hs.fl, h.fl], by rw [hs.sl, h.sl], h.tl, ?_, ?_, ?_, ?_, ?_⟩
  · intro r fa hfa
    obtain ⟨x, hx⟩ := get_of_len hs.fl hfa
    have hsh := hs.fathers r x fa hx hfa
    obtain ⟨h1, h2⟩ := h.fa r x hx
    exact ⟨hsh.flat h1, by rw [hsh.size]; exact h2⟩
  · intro s so ms hso hm
    obtain ⟨x, hx⟩ := get_of_len hs.sl hso
    have hsh := hs.sons s x so hx hso
    obtain ⟨h1, h2⟩ := h.so s x ms hx hm
    exact ⟨hsh.flat h1, by rw [hsh.size]; exact h2⟩
  · intro r s fa so ms k q hfa hso hm hk ho
    obtain ⟨x, hx⟩ := get_of_len hs.fl hfa
    have hshx := hs.fathers r x fa hx hfa
    obtain ⟨y, hy⟩ := get_of_len hs.sl hso
    have hshy := hs.sons s y so hy hso
    have := h.row r s x y ms k q hx hy hm hk ho
    rw [hshx.slenOf, hshx.lenOf, hshy.slenOf, hshy.lenOf]
    exact this
  · intro r s t fa ms ht hfa hm
    obtain ⟨x, hx⟩ := get_of_len hs.fl hfa
    have hshx := hs.fathers r x fa hx hfa
    simp only [hshx.startOf, hshx.slenOf]
    exact h.push r s t x ms ht hx hm
  · intro r s t so ms b e ht hso hm hr hb he
    obtain ⟨y, hy⟩ := get_of_len hs.sl hso
    have hshy := hs.sons s y so hy hso
    simp only [hshy.startOf]
    exact h.pull r s t y ms b e ht hy hm hr hb he

/-! ### one message -/

/-- the owner's rows of a ghost segment -/
theorem seg_facts {ty : Ty} {lens : List Nat} {maps : List Map}
    (hm : Links lens maps) {w : World α} {types : List Types} (h : Wired ty lens maps w types)
    {r s : Nat} {fa so : Arr.Array α} {ms : Map} (hfa : w.fathers[r]? = some fa) (hso : w.sons[s]? = some so)
    (hms : maps[s]? = some ms) :
    ∃ b e, ms.ghostStart[r]? = some b ∧ ms.ghostStart[r + 1]? = some e ∧ b ≤ e ∧ e ≤ so.size ∧
      (segment ms.ghostIndex ms.ghostStart r).length = e - b ∧
      (∀ k q, ms.ghostIndex[k]? = some q → ((b ≤ k ∧ k < e) ↔ Owns lens r q)) ∧
      (∀ i, i < e - b → ∃ q, (segment ms.ghostIndex ms.ghostStart r)[i]? = some q ∧
        ms.ghostIndex[b + i]? = some q ∧ Owns lens r q ∧ locRow lens r q < fa.size ∧
        slenOf ty so (b + i) = slenOf ty fa (locRow lens r q)) ∧
      (((segment ms.ghostIndex ms.ghostStart r).map (fun q => slenOf ty fa (locRow lens r q))).sum =
        startOf ty so e - startOf ty so b) := by
  have hr : r < lens.length := by
    have := (List.getElem?_eq_some_iff.1 hfa).1
    rw [h.fl] at this; exact this
  obtain ⟨b, e, c1, c2, c3, c4, c5, c6, c7⟩ := hm.starts hms r hr
  obtain ⟨hsf, hss⟩ := h.so s so ms hso hms
  have hq : ∀ i, i < e - b → ∃ q, (segment ms.ghostIndex ms.ghostStart r)[i]? = some q ∧
        ms.ghostIndex[b + i]? = some q ∧ Owns lens r q ∧ locRow lens r q < fa.size ∧
        slenOf ty so (b + i) = slenOf ty fa (locRow lens r q) := by
    intro i hi
    have hk : ms.ghostIndex[b + i]? = some (ms.ghostIndex[b + i]'(by omega)) := by simp
    have ho := (c7 _ _ hk).1 (by omega)
    refine ⟨_, ?_, hk, ho, (locRow_lt ho _ (h.fa r fa hfa).2).1, (h.row r s fa so ms _ _ hfa hso hms hk ho).1⟩
    rw [segment_getElem? _ _ _ b e i c1 c2 (by omega)]; exact hk
  refine ⟨b, e, c1, c2, c3, by omega, c5, c7, hq, ?_⟩
  have h1 := (sum_slen hsf (e - b) b (by omega)).1
  rw [show b + (e - b) = e by omega] at h1
  rw [← h1]
  congr 1
  apply List.ext_getElem?
  intro j
  rw [List.getElem?_map, List.getElem?_map]
  by_cases hj : j < e - b
  · obtain ⟨q, h2, h3, h4, h5, h6⟩ := hq j hj
    rw [h2, List.getElem?_range' hj]
    simp [h6]
  · rw [List.getElem?_eq_none (by omega), List.getElem?_eq_none (by simp; omega)]
    rfl

theorem pullMsg_spec {ty : Ty} {lens : List Nat} {maps : List Map}
    (hm : Links lens maps) {w : World α} {types : List Types} (h : Wired ty lens maps w types)
    (r s : Nat) (hr : r < lens.length) (hs : s < lens.length) :
    ∃ w', pullMsg types w r s = .ok w' ∧ Shape w w' ∧ w'.fathers = w.fathers ∧
      (∀ (t : Nat), t ≠ s → w'.sons[t]? = w.sons[t]?) ∧
      (∀ (fa so so' : Arr.Array α) (ms : Map) (k : Nat) (q : Int), w.fathers[r]? = some fa → w.sons[s]? = some so → w'.sons[s]? = some so' →
        maps[s]? = some ms → ms.ghostIndex[k]? = some q →
        (Owns lens r q → srow ty so' k = srow ty fa (locRow lens r q)) ∧
        (¬ Owns lens r q → srow ty so' k = srow ty so k)) := by
  have hfa : w.fathers[r]? = some (w.fathers[r]'(by rw [h.fl]; exact hr)) := by simp
  have hso : w.sons[s]? = some (w.sons[s]'(by rw [h.sl]; exact hs)) := by simp
  have hms : maps[s]? = some (maps[s]'(by rw [hm.len]; exact hs)) := by simp
  have htr : types[r]? = some (types[r]'(by rw [h.tl]; exact hr)) := by simp
  have hts : types[s]? = some (types[s]'(by rw [h.tl]; exact hs)) := by simp
  generalize w.fathers[r]'(by rw [h.fl]; exact hr) = fa at hfa
  generalize w.sons[s]'(by rw [h.sl]; exact hs) = so at hso
  generalize maps[s]'(by rw [hm.len]; exact hs) = ms at hms
  generalize types[r]'(by rw [h.tl]; exact hr) = tr at htr
  generalize types[s]'(by rw [h.tl]; exact hs) = ts at hts
  obtain ⟨b, e, c1, c2, c3, c4, c5, c6, c7, c8⟩ := seg_facts hm h hfa hso hms
  have hsnd := h.push r s tr fa ms htr hfa hms
  have hrcv := h.pull r s ts so ms b e hts hso hms hr c1 c2
  obtain ⟨hff, hfs⟩ := h.fa r fa hfa
  obtain ⟨hsf, hss⟩ := h.so s so ms hso hms
  simp only [List.map_map, Function.comp_def, c8] at hsnd
  simp only [pullMsg, (idx_ok_iff _ _ _).2 htr, (idx_ok_iff _ _ _).2 hts, Res.ok_bind,
    (idx_ok_iff _ _ _).2 hsnd, (idx_ok_iff _ _ _).2 hrcv]
  by_cases hpos : startOf ty so e - startOf ty so b > 0
  · rw [if_pos hpos, if_pos hpos]
    simp only [(idx_ok_iff _ _ _).2 hfa, (idx_ok_iff _ _ _).2 hso, Res.ok_bind]
    let L := (segment ms.ghostIndex ms.ghostStart r).map (fun q => srow ty fa (locRow lens r q))
    have hLl : L.length = e - b := by simp [L, c5]
    have hg : gather fa.data ((segment ms.ghostIndex ms.ghostStart r).map (fun q =>
        (startOf ty fa (locRow lens r q), slenOf ty fa (locRow lens r q)))) = .ok L.flatten := by
      have := gather_rows hff ((segment ms.ghostIndex ms.ghostStart r).map (locRow lens r)) (by
        intro l hl
        obtain ⟨q, hq, rfl⟩ := List.mem_map.1 hl
        obtain ⟨i, hi, rfl⟩ := List.mem_iff_getElem.1 hq
        obtain ⟨q', h1, _, _, h4, _⟩ := c7 i (by omega)
        rw [List.getElem?_eq_getElem hi] at h1
        cases h1; exact h4)
      simpa only [List.map_map, Function.comp_def] using this
    have hLlen : ∀ i x, L[i]? = some x → x.length = slenOf ty so (b + i) := by
      intro i x hx
      have hi : i < e - b := by
        have := (List.getElem?_eq_some_iff.1 hx).1; omega
      obtain ⟨q, h1, h2, h3, h4, h5⟩ := c7 i hi
      simp only [L, List.getElem?_map, h1, Option.map_some, Option.some.injEq] at hx
      rw [← hx, hff.srow_length _ h4, h5]
    have hbe : b < e := by
      rcases Nat.lt_or_ge b e with h1 | h1
      · exact h1
      · have : b = e := by omega
        subst this; omega
    have hpre := rows_prefix hsf L b (by omega) hLlen L.length (Nat.le_refl _)
    rw [List.take_length, hLl, show b + (e - b) = e by omega] at hpre
    have hfl : L.flatten.length = startOf ty so e - startOf ty so b := by
      rw [List.length_flatten, hpre]
    have hin : startOf ty so b + L.flatten.length ≤ so.data.length := by
      have := hsf.start_le e (by omega) (by omega)
      have := hsf.start_mono b e c3 c4
      omega
    obtain ⟨p1, p2, p3⟩ := pull_rows hsf L b (by omega) hLlen _ rfl rfl (by omega)
    rw [hg, Res.ok_bind, hfl]
    rw [if_neg (by simp), memcpy_ok _ _ _ hin, Res.ok_bind]
    refine ⟨_, rfl, ⟨rfl, by simp, ?_, ?_⟩, rfl, ?_, ?_⟩
    · intro r fa fa' h1 h2
      have h2' : w.fathers[r]? = some fa' := h2
      rw [h1] at h2'; cases h2'; exact SameShape.refl _
    · intro t so1 so2 h1 h2
      simp only [set_get _ _ _ _ _ hso] at h2
      by_cases hts : t = s
      · subst hts
        rw [if_pos rfl] at h2
        rw [hso] at h1
        cases h1; cases h2; exact p1
      · rw [if_neg hts, h1] at h2; cases h2; exact SameShape.refl _
    · intro t ht
      simp only [set_get _ _ _ _ _ hso, if_neg ht]
    · intro fa' so1 so2 ms' k q h1 h2 h3 h4 h5
      rw [hfa] at h1; cases h1
      rw [hso] at h2; cases h2
      rw [hms] at h4; cases h4
      simp only [set_get _ _ _ _ _ hso, if_pos, Option.some.injEq] at h3
      subst h3
      have hk : k < so.size := by
        have := (List.getElem?_eq_some_iff.1 h5).1; omega
      constructor
      · intro ho
        obtain ⟨d1, d2⟩ := (c6 k q h5).2 ho
        obtain ⟨q', e1, e2, e3, e4, e5⟩ := c7 (k - b) (by omega)
        rw [show b + (k - b) = k by omega, h5] at e2
        cases e2
        have := p2 (k - b) (srow ty fa (locRow lens r q)) (by simp [L, e1])
        rwa [show b + (k - b) = k by omega] at this
      · intro hno
        apply p3 k hk
        rw [hLl]
        have : ¬ (b ≤ k ∧ k < e) := fun hx => hno ((c6 k q h5).1 hx)
        omega
  · rw [if_neg hpos, if_neg hpos]
    refine ⟨w, rfl, Shape.refl w, rfl, fun _ _ => rfl, ?_⟩
    intro fa' so1 so2 ms' k q h1 h2 h3 h4 h5
    rw [hfa] at h1; cases h1
    rw [hso] at h2; cases h2
    rw [hms] at h4; cases h4
    rw [hso] at h3; cases h3
    refine ⟨?_, fun _ => rfl⟩
    intro ho
    obtain ⟨d1, d2⟩ := (c6 k q h5).2 ho
    obtain ⟨q', e1, e2, e3, e4, e5⟩ := c7 (k - b) (by omega)
    rw [show b + (k - b) = k by omega, h5] at e2
    cases e2
    rw [show b + (k - b) = k by omega] at e5
    have h6 := hsf.start_mono b k d1 (by omega)
    have h7 := hsf.start_succ k (by omega)
    have h8 := hsf.start_mono (k + 1) e (by omega) c4
    have hz : slenOf ty so k = 0 := by omega
    have hz2 : slenOf ty fa (locRow lens r q) = 0 := by omega
    rw [srow, srow, hz, hz2]; simp

/-! ### all messages of a pull -/

theorem pull_spec {ty : Ty} {lens : List Nat} {maps : List Map}
    (hm : Links lens maps) {types : List Types} : ∀ (order : List (Nat × Nat)) (w : World α),
    Wired ty lens maps w types → (∀ p ∈ order, p.1 < lens.length ∧ p.2 < lens.length) →
    ∃ w', pull types w order = .ok w' ∧ Shape w w' ∧ w'.fathers = w.fathers ∧
      ∀ (s r : Nat) (fa so so' : Arr.Array α) (ms : Map) (k : Nat) (q : Int), w.fathers[r]? = some fa →
        w.sons[s]? = some so → w'.sons[s]? = some so' → maps[s]? = some ms → ms.ghostIndex[k]? = some q →
        Owns lens r q →
        ((r, s) ∈ order → srow ty so' k = srow ty fa (locRow lens r q)) ∧
        ((r, s) ∉ order → srow ty so' k = srow ty so k) := by
  intro order
  induction order with
  | nil =>
    intro w h _
    refine ⟨w, rfl, Shape.refl w, rfl, ?_⟩
    intro s r fa so so' ms k q _ h2 h3 _ _ _
    rw [h2] at h3; cases h3
    exact ⟨fun hx => by simp at hx, fun _ => rfl⟩
  | cons p rest ih =>
    intro w h hp
    obtain ⟨r0, s0⟩ := p
    obtain ⟨hr0, hs0⟩ := hp (r0, s0) (by simp)
    obtain ⟨w1, h1, h2, h3, h4, h5⟩ := pullMsg_spec hm h r0 s0 hr0 hs0
    obtain ⟨w', g1, g2, g3, g4⟩ := ih w1 (h.shape h2) (fun p hp' => hp p (by simp [hp']))
    refine ⟨w', ?_, h2.trans g2, by rw [g3, h3], ?_⟩
    · simp only [pull, h1, Res.ok_bind, g1]
    · intro s r fa so so' ms k q hfa hso hso' hms hk ho
      obtain ⟨so1, hso1⟩ := get_of_len (l := w1.sons) g2.sl hso'
      obtain ⟨a1, a2⟩ := g4 s r fa so1 so' ms k q (by rw [h3]; exact hfa) hso1 hso' hms hk ho
      have hmid : ((r, s) = (r0, s0) → srow ty so1 k = srow ty fa (locRow lens r q)) ∧
          ((r, s) ≠ (r0, s0) → srow ty so1 k = srow ty so k) := by
        constructor
        · rintro hx
          cases hx
          exact (h5 fa so so1 ms k q hfa hso hso1 hms hk).1 ho
        · intro hx
          by_cases hs : s = s0
          · subst hs
            have hrr : r ≠ r0 := fun hh => hx (by rw [hh])
            have hfa0 : w.fathers[r0]? = some (w.fathers[r0]'(by rw [h.fl]; exact hr0)) := by simp
            exact (h5 _ so so1 ms k q hfa0 hso hso1 hms hk).2 (fun ho2 => hrr (owns_unique ho ho2))
          · rw [h4 s hs, hso] at hso1
            cases hso1; rfl
      constructor
      · intro hx
        by_cases hr : (r, s) ∈ rest
        · exact a1 hr
        · rw [a2 hr]
          rcases List.mem_cons.1 hx with hx | hx
          · exact hmid.1 hx
          · exact absurd hx hr
      · intro hx
        rw [List.mem_cons, not_or] at hx
        rw [a2 hx.2, hmid.2 hx.1]

/-! ### scattering rows -/

/-- storage of row `l` in other data of the shape of `fa` -/
def rowIn (ty : Ty) (fa : Arr.Array α) (d : List α) (l : Nat) : List α :=
  (d.drop (startOf ty fa l)).take (slenOf ty fa l)

theorem scatter_rows {ty : Ty} {fa : Arr.Array α} (hf : Flat ty fa) : ∀ (ls : List Nat) (xs : List (List α)) (d : List α),
    d.length = fa.data.length → ls.Nodup → (∀ l ∈ ls, l < fa.size) → xs.length = ls.length →
    (∀ (i : Nat) (x : List α) (l : Nat), xs[i]? = some x → ls[i]? = some l → x.length = slenOf ty fa l) →
    ∃ d', scatter d (ls.map (fun l => (startOf ty fa l, slenOf ty fa l))) xs.flatten = .ok d' ∧
      d'.length = fa.data.length ∧
      (∀ (i : Nat) (x : List α) (l : Nat), xs[i]? = some x → ls[i]? = some l → rowIn ty fa d' l = x) ∧
      (∀ l, l < fa.size → l ∉ ls → rowIn ty fa d' l = rowIn ty fa d l) := by
  intro ls
  induction ls with
  | nil =>
    intro xs d hd _ _ hx _
    exact ⟨d, rfl, hd, by intro i x l _ h; simp at h, fun _ _ _ => rfl⟩
  | cons l0 ls ih =>
    intro xs d hd hn hls hx hlen
    cases xs with
    | nil => simp at hx
    | cons x0 xs =>
      have hl0 := hls l0 (by simp)
      have hx0 : x0.length = slenOf ty fa l0 := hlen 0 x0 l0 (by simp) (by simp)
      have hin : startOf ty fa l0 + x0.length ≤ d.length := by
        have h1 := hf.start_le (l0 + 1) (by omega) hl0
        rw [hf.start_succ l0 hl0] at h1
        omega
      obtain ⟨hn1, hn2⟩ := List.nodup_cons.1 hn
      obtain ⟨d', h1, h2, h3, h4⟩ := ih xs _ ((memcpy_length _ _ _ hin).trans hd) hn2
        (fun l hl => hls l (by simp [hl])) (by simpa using hx)
        (fun i x l h1 h2 => hlen (i + 1) x l (by simpa using h1) (by simpa using h2))
      have htk : (x0 ++ xs.flatten).take (slenOf ty fa l0) = x0 := by
        rw [← hx0, List.take_left']; rfl
      have hdr : (x0 ++ xs.flatten).drop (slenOf ty fa l0) = xs.flatten := by
        rw [← hx0, List.drop_left']; rfl
      refine ⟨d', ?_, h2, ?_, ?_⟩
      · simp only [List.map_cons, scatter, List.flatten_cons]
        rw [htk, hdr, memcpy_ok _ _ _ hin, Res.ok_bind, h1]
      · intro i x l hxi hli
        cases i with
        | zero =>
          simp only [List.getElem?_cons_zero, Option.some.injEq] at hxi hli
          subst hxi; subst hli
          rw [h4 _ hl0 hn1, rowIn]
          have := memcpy_in d x0 (startOf ty fa l0) 0 (slenOf ty fa l0) hin (by omega)
          rw [Nat.add_zero] at this
          rw [this, List.drop_zero, ← hx0, List.take_length]
        | succ i => exact h3 i x l (by simpa using hxi) (by simpa using hli)
      · intro l hl hnl
        simp only [List.mem_cons, not_or] at hnl
        rw [h4 l hl hnl.2, rowIn, rowIn, memcpy_out _ _ _ _ _ hin]
        rw [hx0]
        have h5 := hf.start_succ l hl
        have h6 := hf.start_succ l0 hl0
        rcases Nat.lt_or_ge l l0 with hlt | hge
        · left
          have := hf.start_mono (l + 1) l0 (by omega) (by omega)
          omega
        · right
          have hlt : l0 + 1 ≤ l := by have := hnl.1; omega
          have := hf.start_mono (l0 + 1) l hlt (by omega)
          omega

theorem owns_locRow_inj {lens : List Nat} {r : Nat} {q q' : Int} (h : Owns lens r q) (h' : Owns lens r q')
    (he : locRow lens r q = locRow lens r q') : q = q' := by
  obtain ⟨_, h1, _⟩ := h
  obtain ⟨_, h2, _⟩ := h'
  unfold locRow at he
  omega

/-- rank `s` asked for the row with global index `q` -/
def Requests (maps : List Map) (s : Nat) (q : Int) : Prop := ∃ ms, maps[s]? = some ms ∧ q ∈ ms.ghostIndex

theorem pushMsg_spec {ty : Ty} {lens : List Nat} {maps : List Map}
    (hm : Links lens maps) (hdis : Distinct maps) {w : World α} {types : List Types} (h : Wired ty lens maps w types)
    (s r : Nat) (hs : s < lens.length) (hr : r < lens.length) :
    ∃ w', pushMsg types w s r = .ok w' ∧ Shape w w' ∧ w'.sons = w.sons ∧
      (∀ (t : Nat), t ≠ r → w'.fathers[t]? = w.fathers[t]?) ∧
      (∀ (fa fa' so : Arr.Array α) (ms : Map) (k : Nat) (q : Int), w.fathers[r]? = some fa → w'.fathers[r]? = some fa' →
        w.sons[s]? = some so → maps[s]? = some ms → ms.ghostIndex[k]? = some q → Owns lens r q →
        srow ty fa' (locRow lens r q) = srow ty so k) ∧
      (∀ (fa fa' : Arr.Array α) (q : Int), w.fathers[r]? = some fa → w'.fathers[r]? = some fa' →
        Owns lens r q → ¬ Requests maps s q → srow ty fa' (locRow lens r q) = srow ty fa (locRow lens r q)) := by
  have hfa : w.fathers[r]? = some (w.fathers[r]'(by rw [h.fl]; exact hr)) := by simp
  have hso : w.sons[s]? = some (w.sons[s]'(by rw [h.sl]; exact hs)) := by simp
  have hms : maps[s]? = some (maps[s]'(by rw [hm.len]; exact hs)) := by simp
  have htr : types[r]? = some (types[r]'(by rw [h.tl]; exact hr)) := by simp
  have hts : types[s]? = some (types[s]'(by rw [h.tl]; exact hs)) := by simp
  generalize w.fathers[r]'(by rw [h.fl]; exact hr) = fa at hfa
  generalize w.sons[s]'(by rw [h.sl]; exact hs) = so at hso
  generalize maps[s]'(by rw [hm.len]; exact hs) = ms at hms
  generalize types[r]'(by rw [h.tl]; exact hr) = tr at htr
  generalize types[s]'(by rw [h.tl]; exact hs) = ts at hts
  obtain ⟨b, e, c1, c2, c3, c4, c5, c6, c7, c8⟩ := seg_facts hm h hfa hso hms
  have hsnd := h.push r s tr fa ms htr hfa hms
  have hrcv := h.pull r s ts so ms b e hts hso hms hr c1 c2
  obtain ⟨hff, hfs⟩ := h.fa r fa hfa
  obtain ⟨hsf, hss⟩ := h.so s so ms hso hms
  simp only [List.map_map, Function.comp_def, c8] at hsnd
  simp only [pushMsg, (idx_ok_iff _ _ _).2 htr, (idx_ok_iff _ _ _).2 hts, Res.ok_bind,
    (idx_ok_iff _ _ _).2 hsnd, (idx_ok_iff _ _ _).2 hrcv]
  by_cases hpos : startOf ty so e - startOf ty so b > 0
  · rw [if_pos hpos, if_pos hpos]
    simp only [(idx_ok_iff _ _ _).2 hfa, (idx_ok_iff _ _ _).2 hso, Res.ok_bind, List.map_map,
      Function.comp_def, c8]
    have hbe : b < e := by
      rcases Nat.lt_or_ge b e with h1 | h1
      · exact h1
      · have : b = e := by omega
        subst this; omega
    have hmn := hsf.start_mono b e c3 c4
    have hle := hsf.start_le e (by omega) c4
    have hblk := rows_block hsf (e - b) b (by omega)
    rw [show b + (e - b) = e by omega] at hblk
    rw [block, if_pos (by omega), Res.ok_bind, hblk]
    let ls := (segment ms.ghostIndex ms.ghostStart r).map (locRow lens r)
    let xs := (List.range' b (e - b)).map (srow ty so)
    have hlsl : ls.length = e - b := by simp [ls, c5]
    have hxsl : xs.length = e - b := by simp [xs]
    have hlsg : ∀ i, i < e - b → ∃ q, ls[i]? = some (locRow lens r q) ∧ ms.ghostIndex[b + i]? = some q ∧
        Owns lens r q ∧ locRow lens r q < fa.size ∧ slenOf ty so (b + i) = slenOf ty fa (locRow lens r q) := by
      intro i hi
      obtain ⟨q, h1, h2⟩ := c7 i hi
      exact ⟨q, by simp [ls, h1], h2⟩
    have hxsg : ∀ i, i < e - b → xs[i]? = some (srow ty so (b + i)) := by
      intro i hi
      simp [xs, List.getElem?_range' hi]
    have hlt : ∀ l ∈ ls, l < fa.size := by
      intro l hl
      obtain ⟨i, hi, rfl⟩ := List.mem_iff_getElem.1 hl
      obtain ⟨q, h1, _, _, h4, _⟩ := hlsg i (by omega)
      rw [List.getElem?_eq_getElem hi] at h1
      rw [Option.some.inj h1]; exact h4
    have hnd : ls.Nodup := by
      rw [List.Nodup, List.pairwise_iff_getElem]
      intro i j hi hj hij heq
      obtain ⟨q, h1, h2, h3, _⟩ := hlsg i (by omega)
      obtain ⟨q', g1, g2, g3, _⟩ := hlsg j (by omega)
      rw [List.getElem?_eq_getElem hi] at h1
      rw [List.getElem?_eq_getElem hj] at g1
      have := owns_locRow_inj h3 g3 (by rw [← Option.some.inj h1, ← Option.some.inj g1, heq])
      subst this
      have := hdis s ms _ _ _ hms h2 g2
      omega
    have hlen : ∀ (i : Nat) (x : List α) (l : Nat), xs[i]? = some x → ls[i]? = some l → x.length = slenOf ty fa l := by
      intro i x l h1 h2
      have hi : i < e - b := by
        have := (List.getElem?_eq_some_iff.1 h1).1; omega
      obtain ⟨q, g1, g2, g3, g4, g5⟩ := hlsg i hi
      rw [hxsg i hi] at h1
      rw [g1] at h2
      cases h1; cases h2
      rw [hsf.srow_length _ (by omega), g5]
    obtain ⟨d', p1, p2, p3, p4⟩ := scatter_rows hff ls xs fa.data rfl hnd hlt (by omega) hlen
    have hfl : xs.flatten.length = startOf ty so e - startOf ty so b := by
      have := congrArg List.length hblk
      rw [List.length_take, List.length_drop] at this
      rw [show xs.flatten = ((List.range' b (e - b)).map (srow ty so)).flatten from rfl, ← this]
      omega
    have hmap : (segment ms.ghostIndex ms.ghostStart r).map (fun q =>
        (startOf ty fa (locRow lens r q), slenOf ty fa (locRow lens r q))) =
        ls.map (fun l => (startOf ty fa l, slenOf ty fa l)) := by
      simp [ls, List.map_map, Function.comp_def]
    have hne : ¬ ((((List.range' b (e - b)).map (srow ty so)).flatten.length ≠ startOf ty so e - startOf ty so b)) := by
      intro hx; exact hx hfl
    rw [if_neg hne, hmap, p1, Res.ok_bind]
    have hsame : SameShape fa { fa with data := d' } := ⟨d', p2, rfl⟩
    refine ⟨_, rfl, ⟨by simp, rfl, ?_, ?_⟩, rfl, ?_, ?_, ?_⟩
    · intro t f1 f2 h1 h2
      simp only [set_get _ _ _ _ _ hfa] at h2
      by_cases htr : t = r
      · subst htr
        rw [if_pos rfl] at h2
        rw [hfa] at h1
        cases h1; cases h2; exact hsame
      · rw [if_neg htr, h1] at h2; cases h2; exact SameShape.refl _
    · intro t s1 s2 h1 h2
      have h2' : w.sons[t]? = some s2 := h2
      rw [h1] at h2'; cases h2'; exact SameShape.refl _
    · intro t ht
      simp only [set_get _ _ _ _ _ hfa, if_neg ht]
    · intro f1 f2 so1 ms1 k q h1 h2 h3 h4 h5 ho
      rw [hfa] at h1; cases h1
      rw [hso] at h3; cases h3
      rw [hms] at h4; cases h4
      simp only [set_get _ _ _ _ _ hfa, if_pos, Option.some.injEq] at h2
      subst h2
      obtain ⟨d1, d2⟩ := (c6 k q h5).2 ho
      obtain ⟨q', e1, e2, e3, e4, e5⟩ := hlsg (k - b) (by omega)
      rw [show b + (k - b) = k by omega, h5] at e2
      cases e2
      have := p3 (k - b) (srow ty so k) (locRow lens r q) (by
        rw [hxsg (k - b) (by omega), show b + (k - b) = k by omega]) e1
      exact this
    · intro f1 f2 q h1 h2 ho hno
      rw [hfa] at h1; cases h1
      simp only [set_get _ _ _ _ _ hfa, if_pos, Option.some.injEq] at h2
      subst h2
      apply p4 _ (locRow_lt ho _ hfs).1
      intro hx
      obtain ⟨i, hi, hxi⟩ := List.mem_iff_getElem.1 hx
      obtain ⟨q', e1, e2, e3, e4, e5⟩ := hlsg i (by omega)
      rw [List.getElem?_eq_getElem hi, hxi] at e1
      have := owns_locRow_inj ho e3 (Option.some.inj e1)
      subst this
      exact hno ⟨ms, hms, List.mem_of_getElem? e2⟩
  · rw [if_neg hpos, if_neg hpos]
    refine ⟨w, rfl, Shape.refl w, rfl, fun _ _ => rfl, ?_, ?_⟩
    · intro f1 f2 so1 ms1 k q h1 h2 h3 h4 h5 ho
      rw [hfa] at h1; cases h1
      rw [hfa] at h2; cases h2
      rw [hso] at h3; cases h3
      rw [hms] at h4; cases h4
      obtain ⟨d1, d2⟩ := (c6 k q h5).2 ho
      obtain ⟨q', e1, e2, e3, e4, e5⟩ := c7 (k - b) (by omega)
      rw [show b + (k - b) = k by omega, h5] at e2
      cases e2
      rw [show b + (k - b) = k by omega] at e5
      have h6 := hsf.start_mono b k d1 (by omega)
      have h7 := hsf.start_succ k (by omega)
      have h8 := hsf.start_mono (k + 1) e (by omega) c4
      have hz : slenOf ty so k = 0 := by omega
      have hz2 : slenOf ty fa (locRow lens r q) = 0 := by omega
      rw [srow, srow, hz, hz2]; simp
    · intro f1 f2 q h1 h2 _ _
      rw [h1] at h2; cases h2; rfl

theorem push_spec {ty : Ty} {lens : List Nat} {maps : List Map}
    (hm : Links lens maps) (hdis : Distinct maps) {types : List Types} : ∀ (order : List (Nat × Nat)) (w : World α),
    Wired ty lens maps w types → (∀ p ∈ order, p.1 < lens.length ∧ p.2 < lens.length) →
    ∃ w', push types w order = .ok w' ∧ Shape w w' ∧ w'.sons = w.sons ∧
      ∀ (r : Nat) (fa fa' : Arr.Array α) (q : Int), w.fathers[r]? = some fa → w'.fathers[r]? = some fa' →
        Owns lens r q →
        ((∀ s, (s, r) ∈ order → ¬ Requests maps s q) →
          srow ty fa' (locRow lens r q) = srow ty fa (locRow lens r q)) ∧
        (∀ pre s post (so : Arr.Array α) (ms : Map) (k : Nat), order = pre ++ (s, r) :: post →
          (∀ s', (s', r) ∈ post → ¬ Requests maps s' q) → w.sons[s]? = some so → maps[s]? = some ms →
          ms.ghostIndex[k]? = some q → srow ty fa' (locRow lens r q) = srow ty so k) := by
  intro order
  induction order with
  | nil =>
    intro w h _
    refine ⟨w, rfl, Shape.refl w, rfl, ?_⟩
    intro r fa fa' q h1 h2 _
    rw [h1] at h2; cases h2
    refine ⟨fun _ => rfl, ?_⟩
    intro pre s post so ms k hx
    simp at hx
  | cons p rest ih =>
    intro w h hp
    obtain ⟨s0, r0⟩ := p
    obtain ⟨hs0, hr0⟩ := hp (s0, r0) (by simp)
    obtain ⟨w1, h1, h2, h3, h4, h5, h6⟩ := pushMsg_spec hm hdis h s0 r0 hs0 hr0
    obtain ⟨w', g1, g2, g3, g4⟩ := ih w1 (h.shape h2) (fun p hp' => hp p (by simp [hp']))
    refine ⟨w', ?_, h2.trans g2, by rw [g3, h3], ?_⟩
    · simp only [push, h1, Res.ok_bind, g1]
    · intro r fa fa' q hfa hfa' ho
      obtain ⟨fa1, hfa1⟩ := get_of_len (l := w1.fathers) g2.fl hfa'
      obtain ⟨a1, a2⟩ := g4 r fa1 fa' q hfa1 hfa' ho
      constructor
      · intro hno
        rw [a1 (fun s hs => hno s (by simp [hs]))]
        by_cases hr : r = r0
        · subst hr
          exact h6 fa fa1 q hfa hfa1 ho (hno s0 (by simp))
        · rw [h4 r hr, hfa] at hfa1
          cases hfa1; rfl
      · intro pre s post so ms k hord hlast hso hms hk
        cases pre with
        | nil =>
          simp only [List.nil_append, List.cons.injEq, Prod.mk.injEq] at hord
          obtain ⟨⟨rfl, rfl⟩, rfl⟩ := hord
          rw [a1 hlast]
          exact h5 fa fa1 so ms k q hfa hfa1 hso hms hk ho
        | cons p pre =>
          simp only [List.cons_append, List.cons.injEq] at hord
          exact a2 pre s post so ms k hord.2 hlast (by rw [h3]; exact hso) hms hk

end DNDSR.Tran
