import Verif.Spec.LimProc
import Verif.Proof.RecIterAll

/-! Helper lemmas for `Verif.Props.LimProc`: one cell. -/

namespace DNDSR.LimProc

open DNDSR.IMap
open Matrix

variable {N V : Nat} {c : Ctl}

theorem modes_lt {dim q : Nat} (hd : dim = 2 ∨ dim = 3) (h1 : 1 ≤ q) (h3 : q ≤ 3) : modes dim (q - 1) < modes dim q := by
  have : q = 1 ∨ q = 2 ∨ q = 3 := by omega
  rcases hd with rfl | rfl <;> rcases this with rfl | rfl | rfl <;> decide

theorem modes_zero {dim : Nat} (hd : dim = 2 ∨ dim = 3) : modes dim 0 = 0 := by rcases hd with rfl | rfl <;> rfl

theorem modes_mono {dim p q : Nat} (hd : dim = 2 ∨ dim = 3) (h : p ≤ q) (h3 : q ≤ 3) : modes dim p ≤ modes dim q := by
  induction q with
  | zero => have : p = 0 := by omega
            rw [this]
  | succ q ih =>
      rcases Nat.lt_or_ge p (q + 1) with hl | hl
      · have := ih (by omega) (by omega)
        have := modes_lt hd (q := q + 1) (by omega) h3
        simp only [Nat.add_sub_cancel] at this
        omega
      · have : p = q + 1 := by omega
        rw [this]

theorem degree_exists {dim p k : Nat} (hd : dim = 2 ∨ dim = 3) (hk : k < modes dim p) : ∃ q, 1 ≤ q ∧ q ≤ p ∧ Degree dim q k := by
  induction p with
  | zero => rw [modes_zero hd] at hk; omega
  | succ p ih =>
      rcases Nat.lt_or_ge k (modes dim p) with h | h
      · obtain ⟨q, h1, h2, h3⟩ := ih h
        exact ⟨q, h1, by omega, h3⟩
      · exact ⟨p + 1, by omega, le_rfl, by simpa using h, hk⟩

theorem limits_spec {dim q : Nat} (hd : dim = 2 ∨ dim = 3) (h1 : 1 ≤ q) (h3 : q ≤ 3) : limits dim q = .ok (modes dim (q - 1), modes dim q) := by
  have : q = 1 ∨ q = 2 ∨ q = 3 := by omega
  rcases hd with rfl | rfl <;> rcases this with rfl | rfl | rfl <;> rfl

/-- the number of base functions of a degree -/
def width (dim q : Nat) : Nat := modes dim q - modes dim (q - 1)

theorem weights_some {dim q : Nat} (hd : dim = 2 ∨ dim = 3) (h1 : 1 ≤ q) (h3 : q ≤ 3) : ∃ w, Lim.weights dim (width dim q) = some w := by
  have : q = 1 ∨ q = 2 ∨ q = 3 := by omega
  rcases hd with rfl | rfl <;> rcases this with rfl | rfl | rfl <;> simp [Lim.weights, width, modes, Nat.choose]

theorem biway_total (hg : Good c N) {q : Nat} (h1 : 1 ≤ q) (h3 : q ≤ 3) (t o : Matrix (Fin (width c.dim q)) (Fin V) ℝ) : ∃ L, biway c t o = .ok L := by
  obtain ⟨w, hw⟩ := weights_some hg.dim h1 h3
  have : c.biway = 0 ∨ c.biway = 1 ∨ c.biway = 2 ∨ c.biway = 3 ∨ c.biway = 4 := by have := hg.code; omega
  rcases this with h | h | h | h | h <;> simp only [biway, h, hw] <;> exact ⟨_, rfl⟩

theorem multiway_total (hg : Good c N) {q : Nat} (h1 : 1 ≤ q) (h3 : q ≤ 3) (t : Matrix (Fin (width c.dim q)) (Fin V) ℝ)
    (us : List (Matrix (Fin (width c.dim q)) (Fin V) ℝ)) : ∃ L, multiway c t us = .ok L := by
  cases hn : c.normWBAP with
  | false => exact ⟨_, by rw [multiway, if_neg (by rw [hn]; simp)]; rfl⟩
  | true =>
      obtain ⟨w, hw⟩ := weights_some (Or.inl rfl) h1 h3
      rw [← hg.norm hn] at hw
      unfold multiway
      rw [if_pos hn]
      rw [← hg.norm hn, hw]
      exact ⟨_, rfl⟩

theorem candidate_total (hg : Good c N) (E : Eig V) (d : FaceIn N V) {q : Nat} (h1 : 1 ≤ q) (h3 : q ≤ 3) (a : Nat) (t : Matrix (Fin (width c.dim q)) (Fin V) ℝ)
    (z : Matrix (Fin N) (Fin V) ℝ) : ∃ L, candidate c E d a (width c.dim q) t z = .ok L := by
  obtain ⟨L, hL⟩ := biway_total (V := V) hg h1 h3 (E.fm d.uL d.uR d.nrm _ t) (E.fm d.uL d.uR d.nrm _ (rowsOf a _ (d.sec * z)))
  exact ⟨E.fmi d.uL d.uR d.nrm _ L, by simp only [candidate, hL, Res.ok_bind]⟩

/-- the neighbour's coefficients with the rows from `e` on taken from `w` -/
def mixed (d : FaceIn N V) (e : Nat) (w : Matrix (Fin N) (Fin V) ℝ) : Matrix (Fin N) (Fin V) ℝ :=
  fun k v => if e ≤ k.1 then ∑ k' : Fin N, (if e ≤ k'.1 then d.secOther k k' * w k' v else 0) else d.other k v

theorem mixed_congr (d : FaceIn N V) {e : Nat} {w w' : Matrix (Fin N) (Fin V) ℝ} (h : ∀ k : Fin N, e ≤ k.1 → w k = w' k) : mixed d e w = mixed d e w' := by
  funext k v
  unfold mixed
  split
  · refine Finset.sum_congr rfl fun k' _ => ?_
    split
    · next h' => rw [h k' h']
    · rfl
  · rfl

/-- a memory that holds `w` from row `e` on -/
def Holds (mem : Mem N V) (e : Nat) (w : Matrix (Fin N) (Fin V) ℝ) : Prop := ∀ k : Fin N, e ≤ k.1 → mem k = some (w k)

theorem successive_spec (d : FaceIn N V) {e : Nat} {mem : Mem N V} {w : Matrix (Fin N) (Fin V) ℝ} (h : Holds mem e w) : successive d e mem = .ok (mixed d e w) := by
  unfold successive
  split
  · rw [if_pos (fun k hk => by rw [h k hk]; rfl)]
    refine congrArg Res.ok ?_
    funext k v
    unfold mixed
    split
    · refine Finset.sum_congr rfl fun k' _ => ?_
      split
      · next h' => rw [h k' h']; rfl
      · rfl
    · rfl
  · next hn =>
    refine congrArg Res.ok ?_
    funext k v
    unfold mixed
    rw [if_neg (by omega)]

/-- the candidates of the faces with a neighbour -/
def outsOf (ds : List (Option (FaceIn N V))) (W : Nat → Matrix (Fin N) (Fin V) ℝ) (a m : Nat) : List (Matrix (Fin m) (Fin V) ℝ) :=
  (List.range ds.length).filterMap fun j => match ds[j]? with
    | some (some _) => some (rowsOf a m (W j))
    | _ => none

/-- what the rows of degree `q` are: `W` are the candidates of the faces, `Y` is the result -/
structure Level (c : Ctl) (E : Eig V) (ds : List (Option (FaceIn N V))) (x Y : Matrix (Fin N) (Fin V) ℝ) (W : Nat → Matrix (Fin N) (Fin V) ℝ) (q : Nat) : Prop where
  face : ∀ (j : Nat) (d : FaceIn N V), ds[j]? = some (some d) → candidate c E d (modes c.dim (q - 1)) (width c.dim q)
    (rowsOf (modes c.dim (q - 1)) (width c.dim q) x) (mixed d (modes c.dim q) (W j)) = .ok (rowsOf (modes c.dim (q - 1)) (width c.dim q) (W j))
  cell : multiway c (rowsOf (modes c.dim (q - 1)) (width c.dim q) x) (outsOf ds W (modes c.dim (q - 1)) (width c.dim q)) =
    .ok (rowsOf (modes c.dim (q - 1)) (width c.dim q) Y)

theorem rowsOf_congr {a m : Nat} {M M' : Matrix (Fin N) (Fin V) ℝ} (h : ∀ k : Fin N, a ≤ k.1 → k.1 < a + m → M k = M' k) : rowsOf a m M = rowsOf a m M' := by
  funext k v
  unfold rowsOf
  split
  · next h' => rw [h ⟨_, h'⟩ (by simp) (by simp)]
  · rfl

theorem rowsOf_write {a m : Nat} (hm : a + m ≤ N) (B : Matrix (Fin m) (Fin V) ℝ) (M : Matrix (Fin N) (Fin V) ℝ) : rowsOf a m (writeRows a m B M) = B := by
  funext k v
  have hk := k.2
  unfold rowsOf writeRows
  rw [dif_pos (by omega)]
  have h : a ≤ a + k.1 ∧ a + k.1 - a < m := by omega
  rw [dif_pos h]
  congr 1
  exact Fin.ext (by simp)

theorem filterMap_range {α β : Type} (l : List α) (f : α → Option β) (g : Nat → Option β) (h : ∀ j (hj : j < l.length), f l[j] = g j) :
    l.filterMap f = (List.range l.length).filterMap g := by
  have : l.map f = (List.range l.length).map g := by
    refine List.ext_getElem (by simp) ?_
    intro j h1 h2
    simp only [List.getElem_map, List.getElem_range]
    exact h j (by simpa using h1)
  have h2 := congrArg (fun l => l.filterMap id) this
  simpa [List.filterMap_map] using h2

theorem cellC_run (hg : Good c N) (E : Eig V) (ds : List (Option (FaceIn N V))) (x : Matrix (Fin N) (Fin V) ℝ) :
    ∀ (p : Nat), p ≤ c.maxOrder → ∀ (mems : List (Mem N V)) (W0 : Nat → Matrix (Fin N) (Fin V) ℝ), mems.length = ds.length →
    (∀ j d mem, ds[j]? = some (some d) → mems[j]? = some mem → Holds mem (modes c.dim p) (W0 j)) →
    ∃ Y W, (∀ new, cellC c E ds x p mems new = .ok (fun k => if k.1 < modes c.dim p then Y k else new k)) ∧
      (∀ j d k, ds[j]? = some (some d) → modes c.dim p ≤ k.1 → W j k = W0 j k) ∧ ∀ q, 1 ≤ q → q ≤ p → Level c E ds x Y W q := by
  have hd := hg.dim
  intro p
  induction p with
  | zero =>
      intro _ mems W0 _ _
      refine ⟨0, W0, fun new => ?_, fun _ _ _ _ _ => rfl, fun q h1 h2 => by omega⟩
      simp only [cellC, modes_zero hd, Nat.not_lt_zero, if_false]
  | succ p ih =>
      intro hp mems W0 hlen hmem
      have h3 : p + 1 ≤ 3 := by have := hg.order; omega
      have hlim := limits_spec hd (q := p + 1) (by omega) h3
      have hlt := modes_lt hd (q := p + 1) (by omega) h3
      simp only [Nat.add_sub_cancel] at hlim hlt
      have hN : modes c.dim (p + 1) ≤ N := by rw [hg.size]; exact modes_mono hd hp hg.order
      have hw : modes c.dim (p + 1) - modes c.dim p = width c.dim (p + 1) := rfl
      have hae : modes c.dim p + width c.dim (p + 1) = modes c.dim (p + 1) := by rw [← hw]; omega
      -- the faces
      have hface : ∀ (j : Nat) (y : Option (FaceIn N V) × Mem N V), (ds.zip mems)[j]? = some y →
          ∃ z, faceC c E (modes c.dim p) (width c.dim (p + 1)) (rowsOf (modes c.dim p) (width c.dim (p + 1)) x) y.1 y.2 = .ok z ∧
            ((y.1 = none ∧ z.1 = none) ∨ ∃ d out, y.1 = some d ∧ z.1 = some out ∧
              candidate c E d (modes c.dim p) (width c.dim (p + 1)) (rowsOf (modes c.dim p) (width c.dim (p + 1)) x) (mixed d (modes c.dim (p + 1)) (W0 j)) = .ok out ∧
              Holds z.2 (modes c.dim p) (writeRows (modes c.dim p) (width c.dim (p + 1)) out (W0 j))) := by
        intro j y hy
        obtain ⟨o, mem⟩ := y
        obtain ⟨hj1, hj2⟩ := List.getElem?_zip_eq_some.1 hy
        cases o with
        | none => exact ⟨_, rfl, Or.inl ⟨rfl, rfl⟩⟩
        | some d =>
            have hh := hmem j d mem hj1 hj2
            obtain ⟨out, hout⟩ := candidate_total hg E d (q := p + 1) (by omega) h3 (modes c.dim p) (rowsOf (modes c.dim p) (width c.dim (p + 1)) x)
              (mixed d (modes c.dim (p + 1)) (W0 j))
            refine ⟨_, by simp only [faceC, hae, successive_spec d hh, Res.ok_bind, hout]; rfl, Or.inr ⟨d, out, rfl, rfl, hout, ?_⟩⟩
            intro k hk
            show (if h : _ then _ else _) = _
            split
            · next h =>
              congr 1
              funext v
              unfold writeRows
              rw [dif_pos h]
            · next h =>
              rw [hh k (by have := h; omega)]
              congr 1
              funext v
              unfold writeRows
              rw [dif_neg h]
      obtain ⟨r, hr, lr, hrv⟩ := N2C.forRanks_all (fun _ (y : Option (FaceIn N V) × Mem N V) =>
        faceC c E (modes c.dim p) (width c.dim (p + 1)) (rowsOf (modes c.dim p) (width c.dim (p + 1)) x) y.1 y.2)
        (fun j y z => (y.1 = none ∧ z.1 = none) ∨ ∃ d out, y.1 = some d ∧ z.1 = some out ∧
              candidate c E d (modes c.dim p) (width c.dim (p + 1)) (rowsOf (modes c.dim p) (width c.dim (p + 1)) x) (mixed d (modes c.dim (p + 1)) (W0 j)) = .ok out ∧
              Holds z.2 (modes c.dim p) (writeRows (modes c.dim p) (width c.dim (p + 1)) out (W0 j))) (ds.zip mems) hface
      have lr' : r.length = ds.length := by rw [lr, List.length_zip, hlen, min_self]
      -- the values of the faces
      let W1 : Nat → Matrix (Fin N) (Fin V) ℝ := fun j => match r[j]? with
        | some (some out, _) => writeRows (modes c.dim p) (width c.dim (p + 1)) out (W0 j)
        | _ => W0 j
      have hW1 : ∀ (j : Nat) (d : FaceIn N V), ds[j]? = some (some d) → ∃ out mem', r[j]? = some (some out, mem') ∧
          candidate c E d (modes c.dim p) (width c.dim (p + 1)) (rowsOf (modes c.dim p) (width c.dim (p + 1)) x) (mixed d (modes c.dim (p + 1)) (W0 j)) = .ok out ∧
          W1 j = writeRows (modes c.dim p) (width c.dim (p + 1)) out (W0 j) ∧ Holds mem' (modes c.dim p) (W1 j) := by
        intro j d hj
        have hjl := (List.getElem?_eq_some_iff.1 hj).1
        have hmj := List.getElem?_eq_getElem (l := mems) (i := j) (by omega)
        have hrj := List.getElem?_eq_getElem (l := r) (i := j) (by omega)
        rcases hrv j (some d, mems[j]) _ (List.getElem?_zip_eq_some.2 ⟨hj, hmj⟩) hrj with ⟨h, _⟩ | ⟨d', out, e1, e2, e3, e4⟩
        · cases h
        · cases e1
          have hrj' : r[j]? = some (some out, r[j].2) := by rw [hrj]; congr 1; exact Prod.ext e2 rfl
          have : W1 j = writeRows (modes c.dim p) (width c.dim (p + 1)) out (W0 j) := by simp only [W1, hrj']
          exact ⟨out, _, hrj', e3, this, by rw [this]; exact e4⟩
      obtain ⟨out, hout⟩ := multiway_total hg (q := p + 1) (by omega) h3 (rowsOf (modes c.dim p) (width c.dim (p + 1)) x) (r.filterMap fun y => y.1)
      obtain ⟨Y, W, hY, hW, hL⟩ := ih (by omega) (r.map fun y => y.2) W1 (by simpa using lr') (by
        intro j d mem hj hm
        obtain ⟨o, mem', h1, _, _, h4⟩ := hW1 j d hj
        rw [List.getElem?_map, h1] at hm
        cases hm
        exact h4)
      have hWr : ∀ j d, ds[j]? = some (some d) → ∃ out', W1 j = writeRows (modes c.dim p) (width c.dim (p + 1)) out' (W0 j) ∧
          rowsOf (modes c.dim p) (width c.dim (p + 1)) (W j) = out' ∧
          candidate c E d (modes c.dim p) (width c.dim (p + 1)) (rowsOf (modes c.dim p) (width c.dim (p + 1)) x) (mixed d (modes c.dim (p + 1)) (W0 j)) = .ok out' ∧
          ∃ mem', r[j]? = some (some out', mem') := by
        intro j d hj
        obtain ⟨o, mem', h1, h2, h3', _⟩ := hW1 j d hj
        refine ⟨o, h3', ?_, h2, mem', h1⟩
        rw [← rowsOf_write (N := N) (by rw [hae]; exact hN) o (W0 j), ← h3']
        exact rowsOf_congr fun k hk _ => hW j d k hj hk
      have hW0 : ∀ j d k, ds[j]? = some (some d) → modes c.dim (p + 1) ≤ k.1 → W j k = W0 j k := by
        intro j d k hj hk
        obtain ⟨o, h1, _⟩ := hWr j d hj
        rw [hW j d k hj (by omega), h1]
        funext v
        unfold writeRows
        rw [dif_neg (by omega)]
      refine ⟨fun k => if k.1 < modes c.dim p then Y k else writeRows (modes c.dim p) (width c.dim (p + 1)) out 0 k, W, ?_, hW0, ?_⟩
      · intro new
        have e : cellC c E ds x (p + 1) mems new = (do
            let r ← forRanks (fun _ (y : Option (FaceIn N V) × Mem N V) =>
              faceC c E (modes c.dim p) (width c.dim (p + 1)) (rowsOf (modes c.dim p) (width c.dim (p + 1)) x) y.1 y.2) 0 (ds.zip mems)
            let out ← multiway c (rowsOf (modes c.dim p) (width c.dim (p + 1)) x) (r.filterMap fun y => y.1)
            cellC c E ds x p (r.map fun y => y.2) (writeRows (modes c.dim p) (width c.dim (p + 1)) out new)) := by
          simp only [cellC, hlim, Res.ok_bind, if_pos hN]
          rfl
        rw [e, hr, Res.ok_bind, hout, Res.ok_bind, hY]
        refine congrArg Res.ok ?_
        funext k v
        by_cases h1 : k.1 < modes c.dim p
        · have h2 : k.1 < modes c.dim (p + 1) := by omega
          simp only [h1, h2, if_true]
        · by_cases h2 : k.1 < modes c.dim (p + 1)
          · simp only [h1, h2, if_true, if_false]
            unfold writeRows
            rw [dif_pos (by omega), dif_pos (by omega)]
          · simp only [h1, h2, if_false]
            unfold writeRows
            rw [dif_neg (by omega)]
      · intro q h1 h2
        rcases Nat.lt_or_ge q (p + 1) with hq | hq
        · obtain ⟨hf, hc⟩ := hL q h1 (by omega)
          refine ⟨hf, ?_⟩
          rw [hc]
          refine congrArg Res.ok (rowsOf_congr fun k _ hk => ?_)
          have h4 := modes_lt hd h1 (by omega)
          have h5 := modes_mono hd (p := q) (q := p) (by omega) (by omega)
          have : k.1 < modes c.dim p := by unfold width at hk; omega
          rw [if_pos this]
        · have : q = p + 1 := by omega
          subst this
          constructor
          · intro j d hj
            obtain ⟨o, h4, h5, h6, _⟩ := hWr j d hj
            simp only [Nat.add_sub_cancel]
            rw [h5, ← h6, mixed_congr d fun k hk => hW0 j d k hj hk]
          · simp only [Nat.add_sub_cancel]
            have houts : outsOf ds W (modes c.dim p) (width c.dim (p + 1)) = r.filterMap fun y => y.1 := by
              rw [filterMap_range r _ (fun j => match ds[j]? with
                | some (some _) => some (rowsOf (modes c.dim p) (width c.dim (p + 1)) (W j))
                | _ => none), lr']
              · rfl
              · intro j hj
                have hrj := List.getElem?_eq_getElem hj
                have hdj := List.getElem?_eq_getElem (l := ds) (i := j) (by omega)
                rw [hdj]
                cases hdv : ds[j]'(by omega) with
                | none =>
                    have hmj := List.getElem?_eq_getElem (l := mems) (i := j) (by omega)
                    rcases hrv j (none, mems[j]'(by omega)) _ (List.getElem?_zip_eq_some.2 ⟨by rw [hdj, hdv], hmj⟩) hrj with ⟨_, h⟩ | ⟨d', out, e1, _⟩
                    · exact h
                    · cases e1
                | some d =>
                    obtain ⟨o, _, h5, _, mem', h6⟩ := hWr j d (by rw [hdj, hdv])
                    rw [hrj] at h6
                    rw [Option.some.inj h6, h5]
            rw [houts, hout]
            refine congrArg Res.ok ?_
            refine (rowsOf_write (N := N) (by rw [hae]; exact hN) out 0).symm.trans ?_
            refine rowsOf_congr fun k hk _ => ?_
            rw [if_neg (by omega)]

/-- the orders of one cell -/
theorem cellC_exists (hg : Good c N) (E : Eig V) (ds : List (Option (FaceIn N V))) (x : Matrix (Fin N) (Fin V) ℝ) :
    ∃ Y W, (∀ new, cellC c E ds x c.maxOrder (ds.map fun _ _ => none) new = .ok Y) ∧ ∀ q, 1 ≤ q → q ≤ c.maxOrder → Level c E ds x Y W q := by
  obtain ⟨Y, W, h1, _, h2⟩ := cellC_run hg E ds x c.maxOrder le_rfl (ds.map fun _ _ => none) (fun _ => 0) (by simp) (by
    intro j d mem _ _ k hk
    have := k.2
    have := hg.size
    omega)
  refine ⟨Y, W, fun new => ?_, h2⟩
  rw [h1]
  refine congrArg Res.ok ?_
  funext k
  rw [if_pos (by have := k.2; have := hg.size; omega)]

end DNDSR.LimProc
