import Verif.Proof.SerArray

/-!
# Property C16: writing an array and reading it back
-/

namespace DNDSR.SerArr

open DNDSR.Arr hiding Array

variable {α : Type}

/-- C16. The signature is parsed back exactly. -/
theorem signature_roundtrip (t : STy) (h : Valid t) :
    parseSignature (signature t) = .ok ((t.sz : Int), t.ty.rs, t.ty.rm, t.align) :=
  parse_signature t h

/-- C16. Writing any array a program can produce, and reading it into an array object of a compatible type in
whatever state that object was, gives the rows written; the written array keeps its value.  (Not covered: a
fixed-width array of width 0, a max-width array never resized, and fixed-width types whose ignored row maximum
is not the default; see the counterexamples.) -/
theorem array_roundtrip_partial (z : α) (W R : STy) (hW : Valid W) (hR : Valid R) (pW : Plain W) (pR : Plain R)
    (a : Arr.Array α) (ha : Reachable z W.ty a) (v : Val α) (hv : Represents W.ty a v)
    (hc : Compatible W R v.width) (hwidth : kind W = .fixed → v.width ≠ 0)
    (hresized : kind W = .max → a.pRowSizes ≠ none) (b : Arr.Array α) :
    ∃ a' d b', writeArr z W a = .ok (a', d) ∧ Represents W.ty a' v ∧ readArr R b d = .ok b' ∧
      Represents R.ty b' v := by
  have hI := reachable_inv z hW.lay ha
  have hrows := represents_csr_eq hI hv
  have hcond : ¬ (W.ty.rs ≥ 0 ∧ R.ty.rs ≥ 0 ∧ W.ty.rs ≠ R.ty.rs) ∧
      ¬ (W.ty.rm ≥ 0 ∧ R.ty.rm ≥ 0 ∧ W.ty.rm ≠ R.ty.rm) ∧
      ¬ (R.ty.rs ≠ W.ty.rs ∧ (R.ty.rs = NonUniformSize ∨ W.ty.rs = NonUniformSize)) := by
    have hw : W.ty.layout ≠ .csr → v.width = stride W.ty a := represents_width hI hv
    obtain ⟨_, h2, h3, h4⟩ := hc
    unfold Plain NonUniformSize at pW pR
    unfold NonUniformSize
    unfold kind at h2
    unfold stride at hw
    rcases layout_cases W.ty hW.lay with ⟨e, g⟩ | ⟨e, g⟩ | ⟨e, g, g'⟩ | ⟨e, g, g'⟩ | ⟨e, g, g'⟩ <;>
    rcases layout_cases R.ty hR.lay with ⟨f, k⟩ | ⟨f, k⟩ | ⟨f, k, k'⟩ | ⟨f, k, k'⟩ | ⟨f, k, k'⟩ <;>
    simp only [e, f] at h2 h3 h4 hw <;> try (exact absurd h2 (by decide))
    · have := h3 trivial; have := hw (by simp); have := pW (by omega); have := pR (by omega); omega
    · have := pW (by omega); have := pR (by omega); omega
    · have := pW (by omega); have := pR (by omega); omega
    · have := pW (by omega); have := pR (by omega); omega
    · omega
    · omega
    · omega
    · omega
    · have := h4 trivial; have := hw (by simp); omega
  by_cases hcsr : W.ty.layout = .csr
  · have hkR : R.ty.layout = .csr := by
      have := hc.2.1
      unfold kind at this
      rw [hcsr] at this
      revert this
      cases R.ty.layout <;> simp
    obtain ⟨a', d, st, h1, h2, h3, hsig, hds, hdd, hdata, hdst, hst, _, hcomp⟩ := writeArr_csr z W hcsr a hI
    have hrows' : rowsOf W.ty a' = v.rows := by rw [hrows]; exact congrArg Val.rows h3
    have hdyn : ∃ dyn, adjustDyn R W.ty.rs W.ty.rm d.rowSizeDyn = .ok dyn := by
      rcases layout_cases R.ty hR.lay with ⟨f, k⟩ | ⟨f, k⟩ | ⟨f, k, k'⟩ | ⟨f, k, k'⟩ | ⟨f, k, k'⟩ <;>
        (rw [hkR] at f; try cases f)
      unfold adjustDyn
      rw [if_neg (by omega)]
      exact ⟨_, rfl⟩
    obtain ⟨dyn, hdyn⟩ := hdyn
    generalize hb : ({ b with size := d.size, rowSizeDyn := dyn, pRowStart := some st, data := d.data } : Arr.Array α) = b'
    have hread : readArr R b d = .ok b' := by
      rw [readArr_eq W R hW hR b d hsig, if_pos ⟨hc.1, hcond⟩, hdyn, Res.ok_bind]
      unfold readBody
      simp only [hkR, hdst, need, Res.ok_bind, ← hb]
    refine ⟨a', d, b', h1, represents_csr_of_rows h2 hcsr hrows', hread, ?_⟩
    have e1 : b'.size = a'.size := by rw [← hb]; exact hds
    have e2 : b'.pRowStart = a'.pRowStart := by rw [← hb, hst]
    have e3 : b'.data = a'.data := by rw [← hb]; exact hdata
    by_cases hpos : a'.size > 0
    · have hca := hcomp hpos
      have hcb : ifCompressed b' = true := by
        rw [ifCompressed_true_iff] at hca ⊢
        rw [e1, e2]; exact hca
      have nb : ¬ isUnc R.ty b' := fun h => absurd h.2 (by simp [hcb])
      have na : ¬ isUnc W.ty a' := fun h => absurd h.2 (by simp [hca])
      have hIb : Inv R.ty b' := by
        refine ⟨hR.lay, fun h => absurd hkR h, ?_, fun h => absurd h nb, ?_⟩
        · rintro (h | h) <;> rw [hkR] at h <;> cases h
        · intro _ _
          rw [e1, e2, e3]
          exact h2.comp hcsr hca
      apply represents_csr_of_rows hIb hkR
      rw [← hrows']
      unfold rowsOf
      rw [if_neg nb, if_neg na]
      have s1 : startOf R.ty b' = startOf W.ty a' := by
        funext i; simp only [startOf, hkR, hcsr, e2]
      have s2 : lenOf R.ty b' = lenOf W.ty a' := by
        funext i; simp only [lenOf, hkR, hcsr, e2]
      rw [s1, s2, e1, e3]
    · have h0 : b'.size = 0 := by omega
      have hr0 : v.rows = [] := by
        have := rowsOf_length h2
        rw [hrows'] at this
        exact List.eq_nil_of_length_eq_zero (by omega)
      have := represents_empty R.ty hR.lay b' h0
      refine ⟨by rw [hr0]; exact this.size, ?_, fun h => absurd hkR h, ?_⟩
      · intro i hi; rw [hr0] at hi; simp at hi
      · rw [hr0]; exact this.read
  · have hkc : kind W ≠ .csr := by
      unfold kind
      revert hcsr
      cases W.ty.layout <;> simp
    have hRc : R.ty.layout ≠ .csr := by
      intro h
      apply hkc
      rw [hc.2.1]; unfold kind; rw [h]
    have hw := represents_width hI hv hcsr
    have hval : valOf W.ty a = v := by
      obtain ⟨rows, width⟩ := v
      simp only at hrows hw
      unfold valOf
      rw [hrows, hw]
    have hmaxW : W.ty.layout = .max ∨ W.ty.layout = .staticMax ↔ kind W = .max := by
      unfold kind; revert hcsr; cases W.ty.layout <;> simp
    have hmaxR : R.ty.layout = .max ∨ R.ty.layout = .staticMax ↔ kind R = .max := by
      unfold kind; revert hRc; cases R.ty.layout <;> simp
    have hsome : W.ty.layout = .max ∨ W.ty.layout = .staticMax → a.pRowSizes.isSome := by
      intro h
      have := hresized (hmaxW.1 h)
      cases hp : a.pRowSizes with
      | none => exact absurd hp this
      | some _ => rfl
    obtain ⟨d, h1, hsig, hds, hdd, hdata, _, hdz, _⟩ := writeArr_table z W hcsr a hsome
    rw [hw] at hc
    obtain ⟨dyn, hdyn, hstr⟩ := adjust_ok hW hR pW pR a b hc hkc
    generalize hb0 : ({ b with size := d.size, rowSizeDyn := dyn } : Arr.Array α) = b0
    have hbody : ∃ b', readBody R b0 d = .ok b' ∧ b'.size = a.size ∧ b'.data = a.data ∧ b'.rowSizeDyn = dyn ∧
        (W.ty.layout = .max ∨ W.ty.layout = .staticMax → b'.pRowSizes = a.pRowSizes) := by
      unfold readBody
      by_cases hm : R.ty.layout = .max ∨ R.ty.layout = .staticMax
      · have hmW : W.ty.layout = .max ∨ W.ty.layout = .staticMax := by
          rw [hmaxW, hc.2.1, ← hmaxR]; exact hm
        obtain ⟨sz, hsz⟩ := Option.isSome_iff_exists.1 (hsome hmW)
        have hdsz : d.pRowSizes = some sz := by rw [hdz hmW, hsz]
        rcases hm with hm | hm <;>
        · simp only [hm, hdsz, need, Res.ok_bind]
          refine ⟨_, rfl, ?_, ?_, ?_, ?_⟩
          · rw [← hb0]; exact hds
          · exact hdata
          · rw [← hb0]
          · intro _; rw [hsz]
      · have hkf : kind W = .fixed := by
          have h' : kind W ≠ .max := fun h => hm (by rw [hmaxR, ← hc.2.1]; exact h)
          cases hk : kind W with
          | fixed => rfl
          | max => exact absurd hk h'
          | csr => exact absurd hk hkc
        have hne : stride R.ty ({ b0 with data := d.data } : Arr.Array α) ≠ 0 := by
          rw [hstr _ (by rw [← hb0]), ← hw]
          exact hwidth hkf
        have hl : R.ty.layout = .fixed ∨ R.ty.layout = .staticFixed := by
          have := hR.lay
          revert hm hRc this
          cases R.ty.layout <;> simp
        have hnW : ¬ (W.ty.layout = .max ∨ W.ty.layout = .staticMax) := by
          rw [hmaxW, hkf]; simp
        rcases hl with hl | hl <;>
        · simp only [hl]
          rw [if_neg hne]
          refine ⟨_, rfl, ?_, hdata, ?_, fun h => absurd h hnW⟩
          · rw [← hb0]; exact hds
          · rw [← hb0]
    obtain ⟨b', hb', e1, e2, e3, e4⟩ := hbody
    refine ⟨a, d, b', h1, hv, ?_, ?_⟩
    · rw [readArr_eq W R hW hR b d hsig, if_pos ⟨hc.1, hcond⟩, hdd, hdyn, Res.ok_bind, hb0, hb']
    · rw [← hval]
      refine represents_table hI hcsr hRc hR.lay ?_ e1 e2 (hstr b' e3) ?_
      · rw [hmaxW, hmaxR, hc.2.1]
      · intro h; exact ⟨e4 h, hsome h⟩

/-- C16. Reading into an incompatible type aborts — except that a static-maximum type accepts every array of
the dynamic-maximum layout (see `static_max_reads_wrong_rows`). -/
theorem array_incompatible_aborts_partial (z : α) (W R : STy) (hW : Valid W) (hR : Valid R) (pW : Plain W)
    (pR : Plain R) (a : Arr.Array α) (ha : Reachable z W.ty a) (v : Val α) (hv : Represents W.ty a v)
    (hc : ¬ Compatible W R v.width) (hmax : ¬ (W.ty.layout = .max ∧ R.ty.layout = .staticMax))
    (a' : Arr.Array α) (d : Doc α) (hd : writeArr z W a = .ok (a', d)) (b : Arr.Array α) :
    readArr R b d = .abort := by
  have hI := reachable_inv z hW.lay ha
  have hw : W.ty.layout ≠ .csr → v.width = stride W.ty a := represents_width hI hv
  have hfacts : d.sig = signature W ∧ (W.ty.layout = .fixed → d.rowSizeDyn = a.rowSizeDyn) ∧
      (W.ty.layout ≠ .csr → d.pRowStart = none) ∧ (W.ty.layout = .csr → d.pRowSizes = none) := by
    by_cases hcsr : W.ty.layout = .csr
    · obtain ⟨a2, d2, st, h1, _, _, h4, _, _, _, _, _, h5, _⟩ := writeArr_csr z W hcsr a hI
      rw [h1] at hd
      injection hd with hd
      injection hd with hd1 hd2
      subst hd2
      exact ⟨h4, by simp [hcsr], by simp [hcsr], fun _ => h5⟩
    · unfold writeArr at hd
      cases hl : W.ty.layout <;> simp only [hl] at hd
      case csr => exact absurd hl hcsr
      case max | staticMax =>
        cases hp : a.pRowSizes <;> simp only [hp] at hd
        · cases hd
        · injection hd with hd
          injection hd with hd1 hd2
          subst hd2
          simp
      all_goals
        injection hd with hd
        injection hd with hd1 hd2
        subst hd2
        simp
  obtain ⟨hsig, hdyn, hps, hpz⟩ := hfacts
  rw [readArr_eq W R hW hR b d hsig]
  split
  · next hcond =>
    obtain ⟨c1, c2, c3, c4⟩ := hcond
    unfold Compatible at hc
    unfold Plain NonUniformSize at pW pR
    unfold NonUniformSize at c4
    unfold kind at hc
    unfold stride at hw
    rcases layout_cases W.ty hW.lay with ⟨e, g⟩ | ⟨e, g⟩ | ⟨e, g, g'⟩ | ⟨e, g, g'⟩ | ⟨e, g, g'⟩ <;>
    rcases layout_cases R.ty hR.lay with ⟨f, k⟩ | ⟨f, k⟩ | ⟨f, k, k'⟩ | ⟨f, k, k'⟩ | ⟨f, k, k'⟩ <;>
    simp only [e, f] at hc hw hmax hdyn hps hpz <;> try (exfalso; omega)
    · exfalso
      have := hw (by simp)
      apply hc
      exact ⟨c1, trivial, fun _ => by omega, by simp⟩
    · exact absurd ⟨c1, trivial, by simp, by simp⟩ hc
    · have h1 := hw (by simp)
      have h2 := hdyn trivial
      by_cases h3 : (d.rowSizeDyn : Int) = R.ty.rs
      · exact absurd ⟨c1, trivial, fun _ => by omega, by simp⟩ hc
      · unfold adjustDyn DynamicSize
        rw [if_pos (by omega), if_pos (by omega)]
        simp only [Res.assert, if_neg h3, Res.abort_bind]
    · exact absurd ⟨c1, trivial, by simp, by simp⟩ hc
    · exact absurd ⟨c1, trivial, by simp, by simp⟩ hc
    · unfold adjustDyn readBody
      rw [if_neg (by omega)]
      simp [f, hpz, need]
    · unfold adjustDyn readBody
      rw [if_neg (by omega)]
      simp [f, hpz, need]
    · unfold adjustDyn readBody
      rw [if_neg (by omega)]
      simp [f, hps, need]
    · exact absurd ⟨c1, trivial, by simp, by simp⟩ hc
    · exact absurd ⟨trivial, trivial⟩ hmax
    · unfold adjustDyn readBody
      rw [if_neg (by omega)]
      simp [f, hps, need]
    · exact absurd ⟨c1, trivial, by simp, by simp⟩ hc
    · exfalso
      have := hw (by simp)
      apply hc
      exact ⟨c1, trivial, by simp, fun _ => by omega⟩
  · rfl

/-! ### the excluded cases -/

/-- `Array<T, DynamicSize>` -/
def tFixed : STy := ⟨8, ⟨-1, -1⟩, -1⟩
/-- `Array<T, 2>` -/
def tFixed2 : STy := ⟨8, ⟨2, 2⟩, -1⟩
/-- `Array<T, NonUniformSize, DynamicSize>` -/
def tMax : STy := ⟨8, ⟨-2, -1⟩, -1⟩
/-- `Array<T, NonUniformSize, 2>` -/
def tMax2 : STy := ⟨8, ⟨-2, 2⟩, -1⟩
/-- `Array<T, NonUniformSize>` -/
def tCsr : STy := ⟨8, ⟨-2, -2⟩, -1⟩
/-- `Array<T, DynamicSize, 5>`: the row maximum is ignored by the layout -/
def tFixedMax5 : STy := ⟨8, ⟨-1, 5⟩, -1⟩

/-- the written document, computed without the text of the signature -/
theorem read_of_facts (W R : STy) (hW : Valid W) (hR : Valid R) (b : Arr.Array Nat) (d : Doc Nat) (hs : d.sig = signature W)
    (hc : W.sz = R.sz ∧ ¬ (W.ty.rs ≥ 0 ∧ R.ty.rs ≥ 0 ∧ W.ty.rs ≠ R.ty.rs) ∧
          ¬ (W.ty.rm ≥ 0 ∧ R.ty.rm ≥ 0 ∧ W.ty.rm ≠ R.ty.rm) ∧
          ¬ (R.ty.rs ≠ W.ty.rs ∧ (R.ty.rs = NonUniformSize ∨ W.ty.rs = NonUniformSize))) :
    readArr R b d = (adjustDyn R W.ty.rs W.ty.rm d.rowSizeDyn >>= fun dyn =>
      readBody R { b with size := d.size, rowSizeDyn := dyn } d) := by
  rw [readArr_eq W R hW hR b d hs, if_pos hc]

theorem valid_demo : Valid tFixed ∧ Valid tFixed2 ∧ Valid tMax ∧ Valid tMax2 ∧ Valid tCsr ∧ Valid tFixedMax5 := by
  refine ⟨⟨?_, ?_, ?_, ?_, ?_⟩, ⟨?_, ?_, ?_, ?_, ?_⟩, ⟨?_, ?_, ?_, ?_, ?_⟩, ⟨?_, ?_, ?_, ?_, ?_⟩,
    ⟨?_, ?_, ?_, ?_, ?_⟩, ⟨?_, ?_, ?_, ?_, ?_⟩⟩ <;> decide

/-- C16 counterexample: a fixed-width array of width 0 is written, but reading it back divides by zero. -/
theorem zero_width_read_ub :
    ∃ a d, run 0 tFixed.ty Arr.Array.empty [.resize2 true 3 0] = .ok a ∧ writeArr 0 tFixed a = .ok (a, d) ∧
      readArr tFixed Arr.Array.empty d = .ub := by
  refine ⟨_, _, rfl, rfl, ?_⟩
  rw [read_of_facts tFixed tFixed valid_demo.1 valid_demo.1 _ _ rfl (by decide)]
  rfl

/-- C16 counterexample: writing a max-width array that was never resized dereferences a null pointer. -/
theorem never_resized_write_ub : writeArr 0 tMax (Arr.Array.empty : Arr.Array Nat) = .ub := rfl

/-- C16 counterexample: a static-maximum reader does not check the capacity the file was written with and
returns elements that are not those written: row 1 was `[4]`, it reads `[3]`. -/
theorem static_max_reads_wrong_rows :
    ∃ a d b, run 0 tMax.ty Arr.Array.empty [.resize2 true 2 3, .resizeRow 0 3, .resizeRow 1 1,
        .write 0 2 3, .write 1 0 4] = .ok a ∧ writeArr 0 tMax a = .ok (a, d) ∧
      readArr tMax2 Arr.Array.empty d = .ok b ∧ atRead tMax.ty a 1 0 = .ok 4 ∧ atRead tMax2.ty b 1 0 = .ok 3 := by
  refine ⟨_, _, ⟨none, some [3, 1], [0, 0, 3, 4, 0, 0], [], 2, 3⟩, rfl, rfl, ?_, rfl, rfl⟩
  rw [read_of_facts tMax tMax2 valid_demo.2.2.1 valid_demo.2.2.2.1 _ _ rfl (by decide)]
  rfl

/-- C16 counterexample: a row maximum that the writer's layout ignores overwrites the row width of a
dynamic-width reader. -/
theorem ignored_max_reads_wrong_width :
    ∃ a d b, run 0 tFixedMax5.ty Arr.Array.empty [.resize2 true 2 2] = .ok a ∧
      writeArr 0 tFixedMax5 a = .ok (a, d) ∧ readArr tFixed Arr.Array.empty d = .ok b ∧
      rowSize tFixedMax5.ty a 0 = .ok 2 ∧ rowSize tFixed.ty b 0 = .ok 5 := by
  refine ⟨_, _, ⟨none, none, [0, 0, 0, 0], [], 2, 5⟩, rfl, rfl, ?_, rfl, rfl⟩
  rw [read_of_facts tFixedMax5 tFixed valid_demo.2.2.2.2.2 valid_demo.1 _ _ rfl (by decide)]
  rfl

/-! ### instances -/

example : Plain tFixed ∧ Plain tFixed2 ∧ Plain tMax ∧ Plain tMax2 ∧ Plain tCsr := by
  refine ⟨?_, ?_, ?_, ?_, ?_⟩ <;> (unfold Plain; decide)
example : Compatible tFixed tFixed2 2 ∧ ¬ Compatible tFixed tFixed2 3 ∧ Compatible tMax2 tMax 2 ∧
    ¬ Compatible tMax tCsr 2 := by
  refine ⟨?_, ?_, ?_, ?_⟩ <;> (unfold Compatible; decide)
/-- a ragged array as a CSR program builds it -/
example : ∃ a, run 0 tCsr.ty Arr.Array.empty [.resize1 true 2, .resizeRow 1 2, .write 1 0 7] = .ok a ∧
    a.dataU = [[], [7, 0]] ∧ a.size = 2 := ⟨_, rfl, rfl, rfl⟩

end DNDSR.SerArr
