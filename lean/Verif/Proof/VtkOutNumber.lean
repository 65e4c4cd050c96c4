import Verif.Proof.VtkOutFlags
import Mathlib.Data.Nat.Bitwise

namespace DNDSR.VtkOut

open DNDSR.IMap DNDSR.Elem DNDSR.Bits DNDSR.Faces DNDSR.MeshAdj

/-! ### numbering the created nodes -/

/-- the marks of the nodes created for one flag -/
def madeBits (f : Nat) (bs : List Nat) : List Nat := bs.filter (fun b => f.testBit b)

/-- the created nodes in order: node and mark -/
def made : Nat → List Nat → List (Nat × Nat)
  | _, [] => []
  | i, f :: fs => (madeBits f bits7).map (fun b => (i, b)) ++ made (i + 1) fs

theorem flag_ne_zero (f b : Nat) : f &&& (1 <<< b) ≠ 0 ↔ f.testBit b = true := by
  rw [Nat.one_shiftLeft, Nat.and_two_pow]
  cases f.testBit b <;> simp

theorem numberBits_spec (nOwn f : Nat) : ∀ (bs : List Nat) (n : Nat),
    (numberBits nOwn f bs n).2 = n + (madeBits f bs).length ∧ (numberBits nOwn f bs n).1.length = bs.length ∧
    ∀ (k b : Nat), bs[k]? = some b →
      (f.testBit b = false → (numberBits nOwn f bs n).1[k]? = some unInit) ∧
      (f.testBit b = true → ∃ p, (numberBits nOwn f bs n).1[k]? = some ((nOwn + n + p : Nat) : Int) ∧ (madeBits f bs)[p]? = some b) := by
  intro bs
  induction bs with
  | nil => intro n; simp [numberBits, madeBits]
  | cons b bs ih =>
    intro n
    by_cases hf : f.testBit b = true
    · obtain ⟨h1, h2, h3⟩ := ih (n + 1)
      have e : numberBits nOwn f (b :: bs) n = (((nOwn + n : Nat) : Int) :: (numberBits nOwn f bs (n + 1)).1, (numberBits nOwn f bs (n + 1)).2) := by
        rw [numberBits, if_pos ((flag_ne_zero f b).2 hf)]
      have em : madeBits f (b :: bs) = b :: madeBits f bs := by rw [madeBits, List.filter_cons_of_pos hf]; rfl
      rw [e, em]
      refine ⟨by simp only [h1, List.length_cons]; omega, by simp [h2], ?_⟩
      intro k c hk
      cases k with
      | zero =>
        simp only [List.getElem?_cons_zero, Option.some.injEq] at hk
        subst hk
        exact ⟨fun h => (by rw [hf] at h; cases h), fun _ => ⟨0, by simp, by simp⟩⟩
      | succ k =>
        rw [List.getElem?_cons_succ] at hk
        obtain ⟨h4, h5⟩ := h3 k c hk
        refine ⟨fun h => by simpa using h4 h, fun h => ?_⟩
        obtain ⟨p, hp1, hp2⟩ := h5 h
        exact ⟨p + 1, by rw [List.getElem?_cons_succ, hp1]; congr 2; omega, by simpa using hp2⟩
    · have hf' : f.testBit b = false := by simpa using hf
      obtain ⟨h1, h2, h3⟩ := ih n
      have e : numberBits nOwn f (b :: bs) n = (unInit :: (numberBits nOwn f bs n).1, (numberBits nOwn f bs n).2) := by
        rw [numberBits, if_neg (fun h => hf ((flag_ne_zero f b).1 h))]
      have em : madeBits f (b :: bs) = madeBits f bs := by rw [madeBits, List.filter_cons_of_neg hf]; rfl
      rw [e, em]
      refine ⟨h1, by simp [h2], ?_⟩
      intro k c hk
      cases k with
      | zero =>
        simp only [List.getElem?_cons_zero, Option.some.injEq] at hk
        subst hk
        exact ⟨fun _ => by simp, fun h => by rw [hf'] at h; cases h⟩
      | succ k =>
        rw [List.getElem?_cons_succ] at hk
        exact h3 k c hk

/-- a row of `node2recreatedNodes` before conversion: own node `i` with the flags `f`; `off` is where the created nodes begin and `C`
what they are -/
structure RowOk (i f off : Nat) (C : List (Nat × Nat)) (row : List Int) : Prop where
  len : row.length = 8
  zero : row[0]? = some (i : Int)
  no : ∀ b, 1 ≤ b → b ≤ 7 → f.testBit b = false → row[b]? = some unInit
  yes : ∀ b, 1 ≤ b → b ≤ 7 → f.testBit b = true → ∃ p, row[b]? = some ((off + p : Nat) : Int) ∧ C[p]? = some (i, b)

theorem bits7_get (b : Nat) (h1 : 1 ≤ b) (h2 : b ≤ 7) : bits7[b - 1]? = some b := by
  have : b = 1 ∨ b = 2 ∨ b = 3 ∨ b = 4 ∨ b = 5 ∨ b = 6 ∨ b = 7 := by omega
  rcases this with rfl | rfl | rfl | rfl | rfl | rfl | rfl <;> rfl

theorem numberAll_spec (nOwn : Nat) : ∀ (fs : List Nat) (i n : Nat), (∀ f ∈ fs, f.testBit 0 = true) →
    ∃ rows, numberAll nOwn i fs n = .ok (rows, n + (made i fs).length) ∧ rows.length = fs.length ∧
      ∀ (k f : Nat) (row : List Int), fs[k]? = some f → rows[k]? = some row → RowOk (i + k) f (nOwn + n) (made i fs) row := by
  intro fs
  induction fs with
  | nil => intro i n _; exact ⟨[], rfl, rfl, by simp⟩
  | cons f fs ih =>
    intro i n h
    obtain ⟨b1, b2, b3⟩ := numberBits_spec nOwn f bits7 n
    obtain ⟨rows, r1, r2, r3⟩ := ih (i + 1) (numberBits nOwn f bits7 n).2 (fun f hf => h f (by simp [hf]))
    refine ⟨((i : Int) :: (numberBits nOwn f bits7 n).1) :: rows, ?_, by simp [r2], ?_⟩
    · have h0 := h f (by simp)
      have h1 : f &&& 1 ≠ 0 := (flag_ne_zero f 0).2 h0
      simp only [numberAll]
      rw [Res.assert_true _ h1, Res.ok_bind, r1, Res.ok_bind]
      simp only [made, List.length_append, List.length_map]
      rw [b1, Nat.add_assoc]
    · intro k g row hg hrow
      cases k with
      | zero =>
        simp only [List.getElem?_cons_zero, Option.some.injEq] at hg hrow
        subst hg hrow
        refine ⟨by rw [List.length_cons, b2]; rfl, rfl, ?_, ?_⟩
        · intro b hb1 hb2 hf
          rw [show b = (b - 1) + 1 by omega, List.getElem?_cons_succ]
          exact (b3 (b - 1) b (bits7_get b hb1 hb2)).1 hf
        · intro b hb1 hb2 hf
          obtain ⟨p, p1, p2⟩ := (b3 (b - 1) b (bits7_get b hb1 hb2)).2 hf
          refine ⟨p, ?_, ?_⟩
          · conv => lhs; rw [show b = (b - 1) + 1 by omega, List.getElem?_cons_succ]
            exact p1
          · rw [made, List.getElem?_append_left (by simp; exact (List.getElem?_eq_some_iff.1 p2).1), List.getElem?_map, p2]; rfl
      | succ k =>
        rw [List.getElem?_cons_succ] at hg hrow
        have ho := r3 k g row hg hrow
        refine ⟨ho.len, by rw [ho.zero]; congr 2; omega, ho.no, ?_⟩
        intro b hb1 hb2 hf
        obtain ⟨p, p1, p2⟩ := ho.yes b hb1 hb2 hf
        refine ⟨(madeBits f bits7).length + p, by rw [p1, b1]; congr 2; omega, ?_⟩
        rw [made, List.getElem?_append_right (by simp)]
        simp only [List.length_map, Nat.add_sub_cancel_left]
        rw [p2]; congr 2; omega

theorem mem_made : ∀ (fs : List Nat) (i : Nat) (j b : Nat), (j, b) ∈ made i fs ↔
    ∃ k f, j = i + k ∧ fs[k]? = some f ∧ 1 ≤ b ∧ b ≤ 7 ∧ f.testBit b = true := by
  intro fs
  induction fs with
  | nil => intro i j b; simp [made]
  | cons f fs ih =>
    intro i j b
    have hb7 : ∀ b, b ∈ bits7 ↔ 1 ≤ b ∧ b ≤ 7 := by
      intro b
      simp only [bits7, List.mem_cons, List.not_mem_nil, or_false]; omega
    simp only [made, List.mem_append, List.mem_map, ih, madeBits, List.mem_filter, hb7]
    constructor
    · rintro (⟨b', ⟨⟨h1, h2⟩, h3⟩, h4⟩ | ⟨k, g, h1, h2, h3⟩)
      · cases h4; exact ⟨0, f, by simp, by simp, h1, h2, h3⟩
      · exact ⟨k + 1, g, by omega, by simpa using h2, h3⟩
    · rintro ⟨k, g, h1, h2, h3, h4, h5⟩
      cases k with
      | zero =>
        simp only [List.getElem?_cons_zero, Option.some.injEq] at h2
        subst h2
        exact Or.inl ⟨b, ⟨⟨h3, h4⟩, h5⟩, by rw [h1]; rfl⟩
      | succ k => exact Or.inr ⟨k, g, by omega, by simpa using h2, h3, h4, h5⟩

theorem made_nodup : ∀ (fs : List Nat) (i : Nat), (made i fs).Nodup := by
  intro fs
  induction fs with
  | nil => intro i; simp [made]
  | cons f fs ih =>
    intro i
    rw [made, List.nodup_append]
    refine ⟨?_, ih (i + 1), ?_⟩
    · refine (List.Nodup.filter _ (by decide : bits7.Nodup)).map (fun a b h => by simpa using h)
    · intro a ha c hc hac
      subst hac
      obtain ⟨b, _, rfl⟩ := List.mem_map.1 ha
      obtain ⟨k, _, h1, _⟩ := (mem_made fs (i + 1) i b).1 hc
      omega

/-- the points of one rank: its nodes, then the created ones -/
def points (nOwn : Nat) (fs : List Nat) : List (Nat × Nat) := (List.range nOwn).map (fun i => (i, 0)) ++ made 0 fs

theorem points_nodup (nOwn : Nat) (fs : List Nat) : (points nOwn fs).Nodup := by
  rw [points, List.nodup_append]
  refine ⟨List.nodup_range.map (fun a b h => by simpa using h), made_nodup fs 0, ?_⟩
  intro a ha c hc hac
  subst hac
  obtain ⟨i, _, rfl⟩ := List.mem_map.1 ha
  obtain ⟨_, _, _, _, h, _⟩ := (mem_made fs 0 i 0).1 hc
  omega

theorem mem_points (nOwn : Nat) (fs : List Nat) (hl : fs.length = nOwn) (i b : Nat) :
    (i, b) ∈ points nOwn fs ↔ i < nOwn ∧ (b = 0 ∨ (1 ≤ b ∧ b ≤ 7 ∧ bitAt fs i b = true)) := by
  simp only [points, List.mem_append, List.mem_map, List.mem_range, Prod.mk.injEq]
  constructor
  · rintro (⟨a, h, rfl, rfl⟩ | h)
    · exact ⟨h, Or.inl rfl⟩
    · obtain ⟨k, f, h1, h2, h3, h4, h5⟩ := (mem_made fs 0 i b).1 h
      have := (List.getElem?_eq_some_iff.1 h2).1
      refine ⟨by omega, Or.inr ⟨h3, h4, ?_⟩⟩
      rw [bitAt, show i = k by omega, h2]; exact h5
  · rintro ⟨h, rfl | ⟨h1, h2, h3⟩⟩
    · exact Or.inl ⟨i, h, rfl, rfl⟩
    · refine Or.inr ((mem_made fs 0 i b).2 ⟨i, fs[i], by omega, List.getElem?_eq_getElem (by omega), h1, h2, ?_⟩)
      rw [bitAt, List.getElem?_eq_getElem (by omega)] at h3; exact h3

/-- where the row of a node points to -/
theorem RowOk.points {nOwn i f : Nat} {fs : List Nat} {row : List Int} (h : RowOk i f nOwn (made 0 fs) row) (hi : i < nOwn) (b : Nat) (hb : b < 8)
    (hf : b = 0 ∨ f.testBit b = true) : ∃ p : Nat, row[b]? = some (p : Int) ∧ (points nOwn fs)[p]? = some (i, b) := by
  by_cases h0 : b = 0
  · subst h0
    refine ⟨i, h.zero, ?_⟩
    rw [VtkOut.points, List.getElem?_append_left (by simpa using hi), List.getElem?_map, List.getElem?_range hi]; rfl
  · obtain ⟨p, p1, p2⟩ := h.yes b (by omega) (by omega) (hf.resolve_left h0)
    refine ⟨nOwn + p, p1, ?_⟩
    rw [VtkOut.points, List.getElem?_append_right (by simp)]
    simpa using p2

/-! ### filling -/

theorem fill_spec {α : Type} (f : Nat → α) : ∀ (ws : List (Int × α)) (a : List (Option α)),
    (∀ w ∈ ws, ∃ p : Nat, w.1 = p ∧ p < a.length ∧ w.2 = f p) →
    ∃ a', fill ws a = .ok a' ∧ a'.length = a.length ∧
      ∀ p, p < a.length → ((∃ w ∈ ws, w.1 = (p : Int)) → a'[p]? = some (some (f p))) ∧
        ((¬ ∃ w ∈ ws, w.1 = (p : Int)) → a'[p]? = a[p]?) := by
  intro ws
  induction ws with
  | nil => intro a _; exact ⟨a, rfl, rfl, fun p _ => by simp⟩
  | cons w ws ih =>
    intro a h
    obtain ⟨v, x⟩ := w
    obtain ⟨n, hn1, hn2, hn3⟩ := h (v, x) (by simp)
    simp only at hn1 hn3
    subst hn1 hn3
    obtain ⟨a', e, l, s⟩ := ih (a.set n (some (f n))) (fun w hw => by rw [List.length_set]; exact h w (by simp [hw]))
    rw [List.length_set] at l s
    refine ⟨a', ?_, l, fun p hp => ?_⟩
    · simp only [fill]
      rw [set64_ok hn2, Res.ok_bind, e]
    · obtain ⟨s1, s2⟩ := s p hp
      constructor
      · rintro ⟨w, hw, hwp⟩
        by_cases hin : ∃ w ∈ ws, w.1 = (p : Int)
        · exact s1 hin
        · rcases List.mem_cons.1 hw with rfl | hw
          · rw [s2 hin]
            simp only at hwp
            rw [show n = p by omega, List.getElem?_set_self hp]
          · exact absurd ⟨w, hw, hwp⟩ hin
      · intro hno
        rw [s2 (fun ⟨w, hw, hwp⟩ => hno ⟨w, by simp [hw], hwp⟩)]
        rw [List.getElem?_set_ne (fun hc => hno ⟨_, List.mem_cons_self, by rw [hc]⟩)]

theorem whole_spec {α : Type} (l : List α) : whole (l.map some) = .ok l := by
  rw [whole, forRanks_ok]
  refine ⟨by simp, fun i x hx => ?_⟩
  rw [List.getElem?_map] at hx
  cases h : l[i]? with
  | none => rw [h] at hx; cases hx
  | some y =>
    rw [h] at hx; cases hx
    exact ⟨y, rfl, rfl⟩

end DNDSR.VtkOut
