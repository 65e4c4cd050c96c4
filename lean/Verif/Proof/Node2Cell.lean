import Verif.Spec.Node2Cell
import Verif.Props.PartitionAdj
import Mathlib.Data.List.Perm.Subperm

/-! Helper lemmas for `Verif.Props.Node2Cell`. -/

namespace DNDSR.N2C

open DNDSR.Arr hiding Array
open DNDSR.IMap DNDSR.Tran DNDSR.MeshAdj DNDSR.Part

/-! ### records -/

/-- `c` is recorded under `k` -/
def In (m : Rec) (k c : Int) : Prop := ∃ s, recGet m k = some s ∧ c ∈ s

structure WF (m : Rec) : Prop where
  keys : (m.map (·.1)).Nodup
  sets : ∀ p ∈ m, p.2.Nodup ∧ p.2 ≠ []

theorem wf_nil : WF [] := ⟨by simp, by simp⟩

theorem recGet_mem {m : Rec} {k : Int} {s : List Int} (h : recGet m k = some s) : (k, s) ∈ m := by
  induction m with
  | nil => simp [recGet] at h
  | cons p m ih =>
    obtain ⟨k', s'⟩ := p
    simp only [recGet] at h
    split at h
    · rename_i hk; cases h; subst hk; simp
    · exact List.mem_cons_of_mem _ (ih h)

theorem recGet_of_mem {m : Rec} (hw : (m.map (·.1)).Nodup) {k : Int} {s : List Int} (h : (k, s) ∈ m) :
    recGet m k = some s := by
  induction m with
  | nil => simp at h
  | cons p m ih =>
    obtain ⟨k', s'⟩ := p
    rw [List.map_cons, List.nodup_cons] at hw
    simp only [recGet]
    rcases List.mem_cons.1 h with h | h
    · cases h; simp
    · rw [if_neg, ih hw.2 h]
      rintro rfl
      exact hw.1 (List.mem_map.2 ⟨_, h, rfl⟩)

theorem recGet_none {m : Rec} {k : Int} : recGet m k = none ↔ k ∉ m.map (·.1) := by
  induction m with
  | nil => simp [recGet]
  | cons p m ih =>
    obtain ⟨k', s'⟩ := p
    simp only [recGet, List.map_cons, List.mem_cons, not_or]
    by_cases hk : k' = k
    · simp [hk]
    · rw [if_neg hk, ih]
      simp [Ne.symm hk]

theorem recInsert_get (k c k' : Int) (m : Rec) :
    recGet (recInsert k c m) k' = if k' = k then some (setInsert ((recGet m k).getD []) c) else recGet m k' := by
  induction m with
  | nil =>
    simp only [recInsert, recGet]
    by_cases h : k' = k
    · subst h; simp [setInsert]
    · rw [if_neg (Ne.symm h), if_neg h]
  | cons p m ih =>
    obtain ⟨k0, s⟩ := p
    simp only [recInsert]
    by_cases h0 : k0 = k
    · subst h0
      rw [if_pos rfl]
      simp only [recGet]
      by_cases h : k' = k0
      · subst h; simp
      · rw [if_neg (Ne.symm h), if_neg h, if_neg (Ne.symm h)]
    · rw [if_neg h0]
      simp only [recGet]
      rw [ih, if_neg h0]
      by_cases h : k0 = k'
      · subst h; rw [if_pos rfl, if_neg h0, if_pos rfl]
      · rw [if_neg h, if_neg h]

theorem setInsert_mem (s : List Int) (c x : Int) : x ∈ setInsert s c ↔ x ∈ s ∨ x = c := by
  unfold setInsert
  split
  · rename_i h
    exact ⟨Or.inl, fun h' => h'.elim id (fun e => e ▸ h)⟩
  · simp

theorem setInsert_nodup {s : List Int} (c : Int) (h : s.Nodup) : (setInsert s c).Nodup := by
  unfold setInsert
  split
  · exact h
  · rename_i hc
    rw [List.nodup_append]
    refine ⟨h, by simp, ?_⟩
    intro a ha b hb
    rw [List.mem_singleton] at hb
    rintro rfl
    exact hc (hb ▸ ha)

theorem setInsert_length (s : List Int) (c : Int) : (setInsert s c).length ≤ s.length + 1 := by
  unfold setInsert; split <;> simp

theorem recInsert_in (k c : Int) (m : Rec) (k' c' : Int) :
    In (recInsert k c m) k' c' ↔ In m k' c' ∨ (k' = k ∧ c' = c) := by
  unfold In
  rw [recInsert_get]
  by_cases h : k' = k
  · subst h
    simp only [if_true, Option.some.injEq, exists_eq_left', true_and]
    rw [setInsert_mem]
    cases hg : recGet m k' with
    | none => simp
    | some s => simp
  · simp [h]

theorem recInsert_keys (k c : Int) (m : Rec) (x : Int) :
    x ∈ (recInsert k c m).map (·.1) ↔ x ∈ m.map (·.1) ∨ x = k := by
  induction m with
  | nil => simp [recInsert]
  | cons p m ih =>
    obtain ⟨k0, s⟩ := p
    simp only [recInsert]
    by_cases h0 : k0 = k
    · subst h0
      rw [if_pos rfl, List.map_cons, List.map_cons, List.mem_cons]
      constructor
      · intro h; exact Or.inl h
      · rintro (h | h)
        · exact h
        · exact Or.inl h
    · rw [if_neg h0, List.map_cons, List.map_cons, List.mem_cons, List.mem_cons, ih, or_assoc]

theorem recInsert_wf (k c : Int) {m : Rec} (h : WF m) : WF (recInsert k c m) := by
  induction m with
  | nil => exact ⟨by simp [recInsert], by simp [recInsert]⟩
  | cons p m ih =>
    obtain ⟨k0, s⟩ := p
    have hk := h.keys
    rw [List.map_cons, List.nodup_cons] at hk
    have hm : WF m := ⟨hk.2, fun p hp => h.sets p (List.mem_cons_of_mem _ hp)⟩
    simp only [recInsert]
    by_cases h0 : k0 = k
    · rw [if_pos h0]
      refine ⟨by rw [List.map_cons, List.nodup_cons]; exact hk, ?_⟩
      intro p hp
      rcases List.mem_cons.1 hp with rfl | hp
      · refine ⟨setInsert_nodup c (h.sets (k0, s) (by simp)).1, ?_⟩
        intro he
        have : c ∈ setInsert s c := (setInsert_mem _ _ _).2 (Or.inr rfl)
        simp only at he
        rw [he] at this
        simp at this
      · exact hm.sets p hp
    · rw [if_neg h0]
      refine ⟨?_, ?_⟩
      · rw [List.map_cons, List.nodup_cons]
        refine ⟨?_, (ih hm).keys⟩
        show k0 ∉ _
        rw [recInsert_keys]
        rintro (hx | hx)
        · exact hk.1 hx
        · exact h0 hx
      · intro p hp
        rcases List.mem_cons.1 hp with rfl | hp
        · exact h.sets _ (by simp)
        · exact (ih hm).sets p hp

/-- number of recorded elements -/
def recSize (m : Rec) : Nat := (m.map (fun p => p.2.length)).sum

theorem recInsert_size (k c : Int) (m : Rec) : recSize (recInsert k c m) ≤ recSize m + 1 := by
  induction m with
  | nil => simp [recInsert, recSize]
  | cons p m ih =>
    obtain ⟨k0, s⟩ := p
    simp only [recInsert]
    split
    · simp only [recSize, List.map_cons, List.sum_cons]
      have := setInsert_length s c
      omega
    · simp only [recSize, List.map_cons, List.sum_cons] at ih ⊢
      omega

/-- `record[k].insert(c)` for a list of pairs -/
def insAll (m : Rec) (ps : List (Int × Int)) : Rec := ps.foldl (fun m p => recInsert p.1 p.2 m) m

theorem insAll_append (m : Rec) (a b : List (Int × Int)) : insAll m (a ++ b) = insAll (insAll m a) b := by
  simp [insAll]

theorem insAll_in (ps : List (Int × Int)) : ∀ (m : Rec) (k c : Int), In (insAll m ps) k c ↔ In m k c ∨ (k, c) ∈ ps := by
  induction ps with
  | nil => intro m k c; simp [insAll]
  | cons p ps ih =>
    intro m k c
    have := ih (recInsert p.1 p.2 m) k c
    rw [insAll, List.foldl_cons]
    rw [insAll] at this
    rw [this, recInsert_in, List.mem_cons]
    constructor
    · rintro ((h | h) | h)
      · exact Or.inl h
      · exact Or.inr (Or.inl (by rw [h.1, h.2]))
      · exact Or.inr (Or.inr h)
    · rintro (h | h | h)
      · exact Or.inl (Or.inl h)
      · exact Or.inl (Or.inr (by rw [← h]; exact ⟨rfl, rfl⟩))
      · exact Or.inr h

theorem insAll_wf (ps : List (Int × Int)) : ∀ {m : Rec}, WF m → WF (insAll m ps) := by
  induction ps with
  | nil => intro m h; exact h
  | cons p ps ih => intro m h; exact ih (recInsert_wf p.1 p.2 h)

theorem insAll_size (ps : List (Int × Int)) : ∀ (m : Rec), recSize (insAll m ps) ≤ recSize m + ps.length := by
  induction ps with
  | nil => intro m; simp [insAll]
  | cons p ps ih =>
    intro m
    have h1 := ih (recInsert p.1 p.2 m)
    have h2 := recInsert_size p.1 p.2 m
    show recSize (insAll (recInsert p.1 p.2 m) ps) ≤ _
    rw [List.length_cons]; omega

theorem WF.key_iff {m : Rec} (h : WF m) (k : Int) : k ∈ m.map (·.1) ↔ ∃ c, In m k c := by
  constructor
  · intro hk
    obtain ⟨p, hp, rfl⟩ := List.mem_map.1 hk
    obtain ⟨c, hc⟩ := List.exists_mem_of_ne_nil _ (h.sets p hp).2
    exact ⟨c, p.2, recGet_of_mem h.keys hp, hc⟩
  · rintro ⟨c, s, h1, _⟩
    exact List.mem_map.2 ⟨_, recGet_mem h1, rfl⟩

/-! ### filling arrays -/

theorem tyAdj_layout : tyAdj.layout = .csr := by decide

/-- the array showing the given rows, not compressed -/
def rowArr (rows : List (List Int)) : Arr.Array Int := ⟨none, none, [], rows, rows.length, 0⟩

theorem rowArr_unc (rows : List (List Int)) : ifCompressed (rowArr rows) = false := by
  simp [ifCompressed, rowArr]

theorem rowArr_resizeRow (rows : List (List Int)) (i n : Nat) (row : List Int) (h : rows[i]? = some row) :
    step 0 tyAdj (rowArr rows) (.resizeRow i n) = .ok (rowArr (rows.set i (vresize 0 row n))) := by
  have hi := (List.getElem?_eq_some_iff.1 h).1
  have e := (List.getElem?_eq_some_iff.1 h).2
  simp only [step, resizeRow, tyAdj_layout]
  rw [Res.assert_true _ (rowArr_unc rows), Res.ok_bind, Res.assert_true _ (by simp [rowArr, hi]), Res.ok_bind]
  rw [show (rowArr rows).dataU = rows from rfl, Int.toNat_natCast, vat_ok _ _ hi, Res.ok_bind]
  congr 1
  simp only [rowArr, List.length_set]
  congr 1
  rw [List.modify_eq_set_getElem?]
  simp [h]

theorem rowArr_write (rows : List (List Int)) (i j : Nat) (row : List Int) (h : rows[i]? = some row) (hj : j < row.length)
    (v : Int) : step 0 tyAdj (rowArr rows) (.write i j v) = .ok (rowArr (rows.set i (row.set j v))) := by
  have hi := (List.getElem?_eq_some_iff.1 h).1
  have e := (List.getElem?_eq_some_iff.1 h).2
  have hrs : rowSize tyAdj (rowArr rows) i = .ok row.length := by
    simp only [rowSize, tyAdj_layout]
    rw [Res.assert_true _ (by simp [rowArr, hi]), Res.ok_bind, rowArr_unc]
    rw [if_neg (by simp), show (rowArr rows).dataU = rows from rfl, Int.toNat_natCast, vat_ok _ _ hi, Res.ok_bind, e]
  have ha : addr tyAdj (rowArr rows) i j = .ok (.unc i j) := by
    simp only [addr, tyAdj_layout, hrs]
    rw [Res.assert_true _ (by simp [rowArr, hi]), Res.ok_bind, Res.ok_bind, Res.assert_true _ (by omega), Res.ok_bind, rowArr_unc]
    rw [if_neg (by simp), show (rowArr rows).dataU = rows from rfl, Int.toNat_natCast, vat_ok _ _ hi, Res.ok_bind, e,
      Int.toNat_natCast, if_pos hj]
  simp only [step, atWrite, ha, Res.ok_bind, store]
  congr 1
  simp only [rowArr, List.length_set]
  congr 1
  rw [List.modify_eq_set_getElem?]
  simp [h]

theorem run_append (ops1 ops2 : List (Op Int)) : ∀ (a : Arr.Array Int),
    run 0 tyAdj a (ops1 ++ ops2) = (run 0 tyAdj a ops1 >>= fun b => run 0 tyAdj b ops2) := by
  induction ops1 with
  | nil => intro a; rfl
  | cons op ops ih =>
    intro a
    show (step 0 tyAdj a op >>= _) = _
    simp only [run]
    cases hs : step 0 tyAdj a op with
    | ok b => simp [ih]
    | abort => rfl
    | ub => rfl

theorem writes_eq (i : Nat) : ∀ (vals done : List Int) (rows : List (List Int)) (row : List Int), rows[i]? = some (done ++ row) →
    row.length = vals.length →
    run 0 tyAdj (rowArr rows) ((vals.zipIdx done.length).map (fun x => Op.write (i : Int) x.2 x.1)) =
      .ok (rowArr (rows.set i (done ++ vals))) := by
  intro vals
  induction vals with
  | nil =>
    intro done rows row h hl
    have : row = [] := List.length_eq_zero_iff.1 hl
    subst this
    have e := (List.getElem?_eq_some_iff.1 h).2
    simp only [List.zipIdx_nil, List.map_nil, run]
    congr 2
    rw [← e]; simp
  | cons v vs ih =>
    intro done rows row h hl
    cases row with
    | nil => simp at hl
    | cons x xs =>
      rw [List.zipIdx_cons, List.map_cons, run]
      rw [rowArr_write rows i done.length _ h (by simp), Res.ok_bind]
      have hi := (List.getElem?_eq_some_iff.1 h).1
      have hset : (done ++ x :: xs).set done.length v = (done ++ [v]) ++ xs := by
        rw [List.set_append_right _ _ (by omega)]; simp
      rw [hset]
      have := ih (done ++ [v]) (rows.set i (done ++ [v] ++ xs)) xs (by simp [hi]) (by simpa using hl)
      rw [List.length_append, List.length_singleton] at this
      rw [this, List.set_set]
      simp

theorem rowOps_eq (i : Nat) (s : List Int) (rows : List (List Int)) (hi : i < rows.length) :
    run 0 tyAdj (rowArr rows) (rowOps i s) = .ok (rowArr (rows.set i s)) := by
  have h : rows[i]? = some rows[i] := by simp
  rw [rowOps, run, rowArr_resizeRow rows i s.length _ h, Res.ok_bind]
  have := writes_eq i s [] (rows.set i (vresize 0 rows[i] s.length)) (vresize 0 rows[i] s.length) (by simp [hi])
    (vresize_length _ _ _)
  rw [List.length_nil] at this
  rw [this, List.set_set]; simp

/-- the rows after assigning the given ones -/
def setRows (rows : List (List Int)) (es : List (Int × List Int)) : List (List Int) :=
  es.foldl (fun rows x => rows.set x.1.toNat x.2) rows

theorem setRows_length (es : List (Int × List Int)) : ∀ rows, (setRows rows es).length = rows.length := by
  induction es with
  | nil => intro rows; rfl
  | cons e es ih => intro rows; show (setRows (rows.set e.1.toNat e.2) es).length = _; rw [ih]; simp

theorem setRows_get (es : List (Int × List Int)) : ∀ (rows : List (List Int)) (i : Nat), i < rows.length →
    (∀ x ∈ es, 0 ≤ x.1) → (es.map (·.1)).Nodup →
    (∀ s, ((i : Int), s) ∈ es → (setRows rows es)[i]? = some s) ∧
    ((i : Int) ∉ es.map (·.1) → (setRows rows es)[i]? = rows[i]?) := by
  induction es with
  | nil => intro rows i hi _ _; exact ⟨by simp, fun _ => rfl⟩
  | cons e es ih =>
    intro rows i hi hp hn
    obtain ⟨k, t⟩ := e
    rw [List.map_cons, List.nodup_cons] at hn
    have hk : 0 ≤ k := hp (k, t) (by simp)
    obtain ⟨h1, h2⟩ := ih (rows.set k.toNat t) i (by simpa using hi) (fun x hx => hp x (by simp [hx])) hn.2
    refine ⟨?_, ?_⟩
    · intro s hs
      show (setRows (rows.set k.toNat t) es)[i]? = _
      rcases List.mem_cons.1 hs with h | h
      · cases h
        rw [h2 hn.1, Int.toNat_natCast]; simp [hi]
      · exact h1 s h
    · intro hni
      rw [List.map_cons, List.mem_cons, not_or] at hni
      show (setRows (rows.set k.toNat t) es)[i]? = _
      rw [h2 hni.2, List.getElem?_set_ne]
      rintro rfl
      exact hni.1 (by simp only; omega)

theorem fill_eq (n : Nat) (es : List (Int × List Int)) (h : ∀ x ∈ es, 0 ≤ x.1 ∧ x.1 < n) :
    fill n es = .ok (rowArr (setRows (List.replicate n []) es)) := by
  have key : ∀ (es : List (Int × List Int)) (rows : List (List Int)), rows.length = n → (∀ x ∈ es, 0 ≤ x.1 ∧ x.1 < n) →
      run 0 tyAdj (rowArr rows) ((es.map (fun x => rowOps x.1 x.2)).flatten) = .ok (rowArr (setRows rows es)) := by
    intro es
    induction es with
    | nil => intro rows _ _; rfl
    | cons e es ih =>
      intro rows hl he
      obtain ⟨h0, h1⟩ := he e (by simp)
      rw [List.map_cons, List.flatten_cons, run_append]
      have : e.1 = (e.1.toNat : Int) := by omega
      have hr := rowOps_eq e.1.toNat e.2 rows (by omega)
      rw [← this] at hr
      rw [hr, Res.ok_bind]
      exact ih _ (by simp [hl]) (fun x hx => he x (by simp [hx]))
  rw [fill, run]
  have e : step 0 tyAdj Arr.Array.empty (.resize1 true n) = .ok (rowArr (List.replicate n [])) := by
    simp only [step, resize1, tyAdj_layout]
    rw [Res.assert_true _ (by decide), Res.ok_bind]
    simp [rowArr, Arr.Array.empty, vresize]
  rw [e, Res.ok_bind]
  exact key es _ (by simp) h

theorem usable_rows : ∀ (ops : List (Op Int)), (∀ op ∈ ops, (∃ i n, op = .resizeRow i n ∧ n < int32Max) ∨ ∃ i j v, op = .write i j v) →
    ∀ a, UsableRun 0 tyAdj a ops := by
  intro ops
  induction ops with
  | nil => intro _ a; trivial
  | cons op ops ih =>
    intro h a
    refine ⟨?_, fun a' _ => ih (fun o ho => h o (by simp [ho])) a'⟩
    intro v _
    rcases h op (by simp) with ⟨i, n, rfl, hn⟩ | ⟨i, j, x, rfl⟩
    · exact hn
    · trivial

theorem fill_reachable (n : Nat) (es : List (Int × List Int)) (h : ∀ x ∈ es, x.2.length < int32Max) (a : Arr.Array Int)
    (ha : fill n es = .ok a) : Reachable 0 tyAdj a := by
  refine ⟨_, ha, ?_, ?_⟩
  · intro v _
    simp [Usable, tyAdj_layout, Arr.Array.empty]
  · intro a' _
    apply usable_rows
    intro op hop
    simp only [List.mem_flatten, List.mem_map] at hop
    obtain ⟨l, ⟨x, hx, rfl⟩, hop⟩ := hop
    rcases List.mem_cons.1 hop with rfl | hop
    · exact Or.inl ⟨_, _, rfl, h x hx⟩
    · obtain ⟨y, _, rfl⟩ := List.mem_map.1 hop
      exact Or.inr ⟨_, _, _, rfl⟩

theorem rowArr_rows (rows : List (List Int)) : rowsOf tyAdj (rowArr rows) = rows := by
  by_cases h : rows.length = 0
  · have : rows = [] := List.length_eq_zero_iff.1 h
    subst this; decide
  · rw [rowsOf, if_pos]
    · rfl
    · exact ⟨tyAdj_layout, rowArr_unc rows⟩

theorem readRow_eq {a : Arr.Array Int} {rows : List (List Int)} {i k : Nat} {row : List Int}
    (hr : Reachable 0 tyAdj (rowArr rows)) (hk : rows[k]? = some row) (h : SameRow tyAdj a i (rowArr rows) k) :
    readRow a i = .ok row := by
  have hI := reachable_inv 0 (by decide) hr
  have hrow : (rowsOf tyAdj (rowArr rows))[k]? = some row := by rw [rowArr_rows]; exact hk
  obtain ⟨⟨n, h1, h2⟩, h3⟩ := h
  obtain ⟨row', e1, e2⟩ := rowSize_eq hI k (by
    have := (List.getElem?_eq_some_iff.1 hk).1; simpa [rowArr] using this)
  rw [hrow] at e1; cases e1
  rw [e2] at h2; cases h2
  rw [readRow, h1, Res.ok_bind, forRanks_ok]
  refine ⟨by simp, ?_⟩
  intro j x hj
  have hj' : j < row.length := by
    have := (List.getElem?_eq_some_iff.1 hj).1; simpa using this
  refine ⟨row[j], by simp, ?_⟩
  rw [Nat.zero_add, h3, atRead_row hI k j row hrow]
  simp [hj']

theorem rowArr_represents {rows : List (List Int)} (hr : Reachable 0 tyAdj (rowArr rows)) :
    Represents tyAdj (rowArr rows) ⟨rows, 0⟩ :=
  represents_csr_of_rows (reachable_inv 0 (by decide) hr) tyAdj_layout (rowArr_rows rows)

end DNDSR.N2C
