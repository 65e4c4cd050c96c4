import Mathlib.Data.List.Perm.Subperm
import Mathlib.Data.List.GetD
import Mathlib.Data.List.Nodup
import Mathlib.Tactic.Linarith
import Verif.Spec.RCM

/-!
# Searches visit what can be reached, once
-/

namespace DNDSR.RCM

variable {g : Graph}

theorem atI_ok {α : Type} (l : List α) (d : α) {i : Int} (h0 : 0 ≤ i) (h : i < l.length) : atI l i = .ok (l.getD i.toNat d) := by
  unfold atI
  have h' : i.toNat < l.length := by omega
  rw [if_pos h0, List.getElem?_eq_getElem h', List.getD_eq_getElem _ _ h']

theorem idxI_ok {α : Type} (l : List α) (d : α) {i : Int} (h0 : 0 ≤ i) (h : i < l.length) : idxI l i = .ok (l.getD i.toNat d) := by
  unfold idxI
  have h' : i.toNat < l.length := by omega
  rw [if_pos h0, List.getElem?_eq_getElem h', List.getD_eq_getElem _ _ h']

theorem setI_ok {α : Type} (l : List α) (v : α) {i : Int} (h0 : 0 ≤ i) (h : i < l.length) : setI l i v = .ok (l.set i.toNat v) := by
  unfold setI
  rw [if_pos ⟨h0, by omega⟩]

theorem at_entry (l : List Int) {i : Int} (h0 : 0 ≤ i) (h : i < l.length) : atI l i = .ok (entry l i) := by
  rw [atI_ok l (-1) h0 h]; unfold entry; rw [if_pos h0]

theorem idx_entry (l : List Int) {i : Int} (h0 : 0 ≤ i) (h : i < l.length) : idxI l i = .ok (entry l i) := by
  rw [idxI_ok l (-1) h0 h]; unfold entry; rw [if_pos h0]

theorem at_row {i : Int} (h : Vertex g i) : atI g i = .ok (nbr g i) := by
  rw [atI_ok g [] h.1 h.2]; unfold nbr; rw [if_pos h.1]

theorem entry_set (l : List Int) (v : Int) {i j : Int} (hi : 0 ≤ i) (hi2 : i < l.length) :
    entry (l.set i.toNat v) j = if j = i then v else entry l j := by
  unfold entry
  by_cases hj : 0 ≤ j
  · rw [if_pos hj, if_pos hj]
    by_cases e : j = i
    · subst e
      rw [if_pos rfl, List.getD_eq_getElem?_getD, List.getElem?_set_self (by omega)]
      rfl
    · rw [if_neg e, List.getD_eq_getElem?_getD, List.getElem?_set_ne (by omega), List.getD_eq_getElem?_getD]
  · rw [if_neg hj, if_neg hj, if_neg (by omega)]

theorem entry_eq {l : List Int} {i : Int} (h0 : 0 ≤ i) (h : i.toNat < l.length) : entry l i = l[i.toNat] := by
  unfold entry; rw [if_pos h0, List.getD_eq_getElem _ _ h]

/-- Lists without repetition are no longer than the range of their elements. -/
theorem length_le {n : Nat} {l : List Int} (hn : l.Nodup) (h : ∀ v ∈ l, 0 ≤ v ∧ v < n) : l.length ≤ n := by
  have : l ⊆ (List.range n).map Int.ofNat := by
    intro v hv
    have := h v hv
    rw [List.mem_map]
    exact ⟨v.toNat, List.mem_range.mpr (by omega), by show ((v.toNat : Nat) : Int) = v; omega⟩
  have := (List.subperm_of_subset hn this).length_le
  simpa using this

theorem nbr_vertex (hg : Symmetric g) {u w : Int} (hu : Vertex g u) (h : w ∈ nbr g u) : Vertex g w := by
  by_cases e : u = w
  · exact e ▸ hu
  · exact (hg.back u hu w h e).1

theorem nbr_symm (hg : Symmetric g) {u w : Int} (hu : Vertex g u) (h : w ∈ nbr g u) : u ∈ nbr g w := by
  by_cases e : u = w
  · exact e ▸ h
  · exact (hg.back u hu w h e).2

theorem reach_vertex (hg : Symmetric g) {u v : Int} (hu : Vertex g u) (h : Reach g u v) : Vertex g v := by
  induction h with
  | refl => exact hu
  | step _ hw ih => exact nbr_vertex hg ih hw

theorem walk_reach {u v : Int} {n : Nat} (h : Walk g u v n) : Reach g u v := by
  induction h with
  | refl => exact .refl
  | step _ hw ih => exact .step ih hw

/-- The scan of a row. -/
theorem scan_spec (iLayer : Int) (hl : 0 ≤ iLayer) (row : List Int) : ∀ (layer next : List Int), (∀ v ∈ row, 0 ≤ v ∧ v < layer.length) →
    ∃ layer' new, scan iLayer row (layer, next) = .ok (layer', next ++ new) ∧ layer'.length = layer.length ∧ new.Nodup ∧
      (∀ v, v ∈ new ↔ v ∈ row ∧ entry layer v = -1) ∧ ∀ v, entry layer' v = if v ∈ new then iLayer + 1 else entry layer v := by
  induction row with
  | nil =>
    intro layer next _
    exact ⟨layer, [], by simp [scan], rfl, List.nodup_nil, by simp, by simp⟩
  | cons j js ih =>
    intro layer next h
    have hj := h j (by simp)
    unfold scan
    rw [at_entry layer hj.1 hj.2, Res.ok_bind]
    by_cases e : entry layer j = -1
    · rw [if_pos e, setI_ok layer _ hj.1 hj.2, Res.ok_bind]
      obtain ⟨l', new, h1, h2, h3, h4, h5⟩ := ih (layer.set j.toNat (iLayer + 1)) (next ++ [j])
        (by intro v hv; rw [List.length_set]; exact h v (by simp [hv]))
      have hs := fun v => entry_set layer (iLayer + 1) (j := v) hj.1 hj.2
      have hjn : j ∉ new := by
        intro hc
        have := ((h4 j).mp hc).2
        rw [hs, if_pos rfl] at this
        omega
      refine ⟨l', j :: new, by rw [h1]; simp, by rw [h2, List.length_set], List.nodup_cons.mpr ⟨hjn, h3⟩, ?_, ?_⟩
      · intro v
        rw [List.mem_cons, List.mem_cons, h4, hs]
        by_cases ev : v = j
        · subst ev; simp [e]
        · simp [ev]
      · intro v
        rw [h5, hs]
        by_cases ev : v = j
        · subst ev; simp [hjn]
        · simp [ev]
    · rw [if_neg e]
      obtain ⟨l', new, h1, h2, h3, h4, h5⟩ := ih layer next (by intro v hv; exact h v (by simp [hv]))
      refine ⟨l', new, h1, h2, h3, ?_, h5⟩
      intro v
      rw [h4, List.mem_cons]
      by_cases ev : v = j
      · subst ev; simp [e]
      · simp [ev]

theorem insertAt_spec {comp : Int → Int → Res Bool} (x : Int) : ∀ l : List Int, (∀ y ∈ l, ∃ b, comp x y = .ok b) →
    ∃ r, insertAt comp x l = .ok r ∧ r.Perm (x :: l) := by
  intro l
  induction l with
  | nil => intro _; exact ⟨[x], rfl, .refl _⟩
  | cons y ys ih =>
    intro h
    obtain ⟨b, hb⟩ := h y (by simp)
    unfold insertAt
    rw [hb, Res.ok_bind]
    cases b
    · obtain ⟨r, hr, hp⟩ := ih fun z hz => h z (by simp [hz])
      refine ⟨y :: r, by simp [hr], ?_⟩
      exact (List.Perm.cons y hp).trans (List.Perm.swap x y ys)
    · exact ⟨x :: y :: ys, by simp, .refl _⟩

theorem stableSort_spec {comp : Int → Int → Res Bool} : ∀ l acc : List Int, (∀ x ∈ l ++ acc, ∀ y ∈ l ++ acc, ∃ b, comp x y = .ok b) →
    ∃ r, stableSort comp l acc = .ok r ∧ r.Perm (l ++ acc) := by
  intro l
  induction l with
  | nil => intro acc _; exact ⟨acc, rfl, .refl _⟩
  | cons x xs ih =>
    intro acc h
    obtain ⟨a, ha, hp⟩ := insertAt_spec (comp := comp) x acc fun y hy => h x (by simp) y (by simp [hy])
    have hm : ∀ z, z ∈ xs ++ a ↔ z ∈ x :: xs ++ acc := by
      intro z
      rw [List.mem_append, hp.mem_iff]
      simp only [List.cons_append, List.mem_cons, List.mem_append]
      tauto
    obtain ⟨r, hr, hq⟩ := ih a fun u hu v hv => h u ((hm u).mp hu) v ((hm v).mp hv)
    refine ⟨r, by unfold stableSort; rw [ha, Res.ok_bind, hr], hq.trans ?_⟩
    exact (List.Perm.append_left xs hp).trans List.perm_middle

/-- Between two steps of a search: `D` are the vertices whose turn is over, `P` those in the queues. -/
structure Inv (g : Graph) (root : Int) (layer : List Int) (D P : List Int) : Prop where
  len : layer.length = g.length
  nodup : (D ++ P).Nodup
  reach : ∀ v ∈ D ++ P, Reach g root v
  mark : ∀ v, Vertex g v → (entry layer v ≠ -1 ↔ v ∈ D ++ P)
  closed : ∀ u ∈ D, ∀ w ∈ nbr g u, w ∈ D ++ P
  start : root ∈ D ++ P
  first : ∀ (a : Nat) x, (D ++ P)[a]? = some x → a = 0 ∨ ∃ q w, q < D.length ∧ q < a ∧ (D ++ P)[q]? = some w ∧ x ∈ nbr g w
  mono : ∀ (a b p : Nat) x y z, a < b → (D ++ P)[a]? = some x → (D ++ P)[b]? = some y → (D ++ P)[p]? = some z → p < D.length → y ∈ nbr g z →
    a = 0 ∨ ∃ q w, q ≤ p ∧ (D ++ P)[q]? = some w ∧ x ∈ nbr g w

/-- The layers so far: `cur` is what is left of the current one, `next` what there is of the next one. -/
structure Lev (g : Graph) (root : Int) (layer : List Int) (iLayer : Int) (D cur next : List Int) : Prop where
  done : ∀ v ∈ D, entry layer v ≤ iLayer
  here : ∀ v ∈ cur, entry layer v = iLayer
  nxt : ∀ v ∈ next, entry layer v = iLayer + 1
  zero : entry layer root = 0
  walk : ∀ v ∈ D ++ (cur ++ next), ∃ n : Nat, entry layer v = n ∧ Walk g root v n
  edge : ∀ u ∈ D, ∀ w ∈ nbr g u, entry layer w ≤ entry layer u + 1

theorem Lev.shift {layer D next : List Int} {iLayer root : Int} (h : Lev g root layer iLayer D [] next) : Lev g root layer (iLayer + 1) D next [] :=
  ⟨fun v hv => by have := h.done v hv; omega, h.nxt, by simp, h.zero, by simpa using h.walk, h.edge⟩

/-- What a search asks of its visitor: `Q D s` is kept as vertices are added to `D`. -/
structure Good {σ : Type} (g : Graph) (v : Visitor σ) (root : Int) (Q : List Int → σ → Prop) : Prop where
  node : ∀ D s i l, Q D s → i ∉ D → Reach g root i → ∃ s', v.node i l s = .ok s' ∧ Q (D ++ [i]) s'
  comp : ∀ c, v.comp = some c → ∀ D s layer i j, Q D s → layer.length = g.length → Vertex g i → Vertex g j → ∃ b, c s layer i j = .ok b

variable {σ : Type} {v : Visitor σ} {root : Int} {Q : List Int → σ → Prop}

theorem inlayerSort_spec (hv : Good g v root Q) {D : List Int} {s : σ} (hQ : Q D s) {layer next new : List Int} (hl : layer.length = g.length)
    (hn : ∀ w ∈ new, Vertex g w) : ∃ new', inlayerSort v s layer next.length (next ++ new) = .ok (next ++ new') ∧ new'.Perm new := by
  unfold inlayerSort
  cases hc : v.comp with
  | none => exact ⟨new, rfl, .refl _⟩
  | some c =>
    have h := stableSort_spec (comp := c s layer) new [] (by
      intro x hx y hy
      exact hv.comp c hc D s layer x y hQ hl (hn x (by simpa using hx)) (hn y (by simpa using hy)))
    obtain ⟨r, hr, hp⟩ := h
    refine ⟨r, ?_, by simpa using hp⟩
    simp only [List.drop_left, List.take_left]
    rw [hr, Res.ok_bind]

theorem bfsQueue_spec (hg : Symmetric g) (hr : Vertex g root) (hv : Good g v root Q) (iLayer : Int) (hl : 0 ≤ iLayer) :
    ∀ (cur next D layer : List Int) (s : σ), Inv g root layer D (cur ++ next) → Lev g root layer iLayer D cur next → Q D s →
      ∃ s' layer' next', bfsQueue g v iLayer cur (s, layer, next) = .ok (s', layer', next') ∧ Inv g root layer' (D ++ cur) next' ∧
        Lev g root layer' iLayer (D ++ cur) [] next' ∧ Q (D ++ cur) s' := by
  intro cur
  induction cur with
  | nil => intro next D layer s hi hlv hq; exact ⟨s, layer, next, rfl, by simpa using hi, by simpa using hlv, by simpa using hq⟩
  | cons i is ih =>
    intro next D layer s hi hlv hq
    have hri : Reach g root i := hi.reach i (by simp)
    have hvi : Vertex g i := reach_vertex hg hr hri
    have hnd : i ∉ D := by
      have := hi.nodup
      rw [List.nodup_append] at this
      intro hc
      exact this.2.2 i hc i (by simp) rfl
    obtain ⟨s1, hs1, hq1⟩ := hv.node D s i iLayer hq hnd hri
    have hrow : ∀ w ∈ nbr g i, 0 ≤ w ∧ w < layer.length := by
      intro w hw; rw [hi.len]; exact nbr_vertex hg hvi hw
    obtain ⟨l1, new, h1, h2, h3, h4, h5⟩ := scan_spec iLayer hl (nbr g i) layer next hrow
    obtain ⟨new', h6, h7⟩ := inlayerSort_spec hv hq1 (next := next) (new := new) (layer := l1) (h2.trans hi.len)
      (fun w hw => nbr_vertex hg hvi ((h4 w).mp hw).1)
    have hmem : ∀ w, w ∈ new' ↔ w ∈ nbr g i ∧ entry layer w = -1 := fun w => by rw [h7.mem_iff, h4]
    have hnew : ∀ w ∈ new', w ∉ D ++ (i :: is ++ next) := by
      intro w hw hc
      have hw' := (hmem w).mp hw
      exact (hi.mark w (nbr_vertex hg hvi hw'.1)).mpr hc hw'.2
    have e : (D ++ [i]) ++ (is ++ (next ++ new')) = (D ++ (i :: is ++ next)) ++ new' := by simp
    have hat : ((D ++ (i :: is ++ next)) ++ new')[D.length]? = some i := by
      rw [List.append_assoc, List.getElem?_append_right (le_refl _), Nat.sub_self]; rfl
    have hfirst : ∀ a x, ((D ++ [i]) ++ (is ++ (next ++ new')))[a]? = some x →
        a = 0 ∨ ∃ q w, q < (D ++ [i]).length ∧ q < a ∧ ((D ++ [i]) ++ (is ++ (next ++ new')))[q]? = some w ∧ x ∈ nbr g w := by
      rw [e]
      intro a x hx
      by_cases haW : a < (D ++ (i :: is ++ next)).length
      · rw [List.getElem?_append_left haW] at hx
        rcases hi.first a x hx with h | ⟨q, w, hq, hqa, hw, h⟩
        · exact Or.inl h
        · refine Or.inr ⟨q, w, by rw [List.length_append]; omega, hqa, ?_, h⟩
          rw [List.getElem?_append_left (by rw [List.length_append]; omega)]
          exact hw
      · rw [List.getElem?_append_right (by omega)] at hx
        refine Or.inr ⟨D.length, i, by simp, ?_, hat, ((hmem x).mp (List.mem_of_getElem? hx)).1⟩
        simp only [List.length_append, List.length_cons] at haW
        omega
    have hi2 : Inv g root l1 (D ++ [i]) (is ++ (next ++ new')) := by
      refine ⟨h2.trans hi.len, ?_, ?_, ?_, ?_, ?_, hfirst, ?_⟩
      · rw [e, List.nodup_append]
        exact ⟨hi.nodup, h7.nodup_iff.mpr h3, fun a ha b hb hab => hnew b hb (hab ▸ ha)⟩
      · intro w hw
        rw [e, List.mem_append] at hw
        rcases hw with hw | hw
        · exact hi.reach w hw
        · exact .step hri ((hmem w).mp hw).1
      · intro w hw
        rw [e, List.mem_append, h5, ← hi.mark w hw, h7.mem_iff]
        by_cases hc : w ∈ new
        · rw [if_pos hc]; simp [hc]; omega
        · rw [if_neg hc]; simp [hc]
      · intro u hu w hw
        rw [e, List.mem_append]
        rw [List.mem_append, List.mem_singleton] at hu
        rcases hu with hu | rfl
        · exact Or.inl (hi.closed u hu w hw)
        · by_cases hc : entry layer w = -1
          · exact Or.inr ((hmem w).mpr ⟨hw, hc⟩)
          · exact Or.inl ((hi.mark w (nbr_vertex hg hvi hw)).mp hc)
      · rw [e, List.mem_append]; exact Or.inl hi.start
      · rw [e]
        intro a b p x y z hab hx hy hz hp hyz
        rw [List.length_append, List.length_singleton] at hp
        by_cases hpD : p < D.length
        · -- an old parent: its neighbours were in the queues already
          rw [List.getElem?_append_left (by rw [List.length_append]; omega)] at hz
          have hzD : z ∈ D := by
            rw [List.getElem?_append_left hpD] at hz
            exact List.mem_of_getElem? hz
          have hyW := hi.closed z hzD y hyz
          have hb : b < (D ++ (i :: is ++ next)).length := by
            apply Classical.byContradiction
            intro hc
            rw [List.getElem?_append_right (by omega)] at hy
            exact hnew y (List.mem_of_getElem? hy) hyW
          rw [List.getElem?_append_left hb] at hy
          rw [List.getElem?_append_left (by omega)] at hx
          rcases hi.mono a b p x y z hab hx hy hz hpD hyz with h | ⟨q, w, hq, hw, h⟩
          · exact Or.inl h
          · refine Or.inr ⟨q, w, hq, ?_, h⟩
            rw [List.getElem?_append_left (by rw [List.length_append]; omega)]
            exact hw
        · have hpe : p = D.length := by omega
          by_cases haW : a < (D ++ (i :: is ++ next)).length
          · rw [List.getElem?_append_left haW] at hx
            rcases hi.first a x hx with h | ⟨q, w, hq, _, hw, h⟩
            · exact Or.inl h
            · refine Or.inr ⟨q, w, by omega, ?_, h⟩
              rw [List.getElem?_append_left (by rw [List.length_append]; omega)]
              exact hw
          · rw [List.getElem?_append_right (by omega)] at hx
            exact Or.inr ⟨D.length, i, by omega, hat, ((hmem x).mp (List.mem_of_getElem? hx)).1⟩
    have hold : ∀ w ∈ D ++ (i :: is ++ next), entry l1 w = entry layer w := by
      intro w hw
      rw [h5, if_neg]
      intro hc
      exact hnew w (h7.mem_iff.mpr hc) hw
    have hnw : ∀ w ∈ new', entry l1 w = iLayer + 1 := fun w hw => by rw [h5, if_pos (h7.mem_iff.mp hw)]
    have hcur : entry layer i = iLayer := hlv.here i (by simp)
    have hbound : ∀ w ∈ D ++ (i :: is ++ next), entry layer w ≤ iLayer + 1 := by
      intro w hw
      rcases List.mem_append.mp hw with h | h
      · have := hlv.done w h; omega
      · rcases List.mem_append.mp h with h | h
        · rw [hlv.here w h]; omega
        · rw [hlv.nxt w h]
    have hlv2 : Lev g root l1 iLayer (D ++ [i]) is (next ++ new') := by
      refine ⟨?_, ?_, ?_, by rw [hold root hi.start]; exact hlv.zero, ?_, ?_⟩
      · intro w hw
        rcases List.mem_append.mp hw with h | h
        · rw [hold w (List.mem_append_left _ h)]; exact hlv.done w h
        · rw [List.mem_singleton] at h
          subst h
          rw [hold _ (by simp), hcur]
      · intro w hw
        rw [hold w (by simp [hw])]
        exact hlv.here w (by simp [hw])
      · intro w hw
        rcases List.mem_append.mp hw with h | h
        · rw [hold w (by simp [h])]; exact hlv.nxt w h
        · exact hnw w h
      · intro w hw
        rw [e, List.mem_append] at hw
        rcases hw with h | h
        · rw [hold w h]; exact hlv.walk w h
        · rw [hnw w h]
          obtain ⟨n, hn, hwalk⟩ := hlv.walk i (by simp)
          exact ⟨n + 1, by rw [hcur] at hn; rw [hn]; push_cast; rfl, .step hwalk ((hmem w).mp h).1⟩
      · intro u hu w hw
        rcases List.mem_append.mp hu with h | h
        · have hwm := hi.closed u h w hw
          rw [hold w hwm, hold u (List.mem_append_left _ h)]
          exact hlv.edge u h w hw
        · rw [List.mem_singleton] at h
          subst h
          rw [hold u (by simp), hcur]
          by_cases hc : entry layer w = -1
          · rw [hnw w ((hmem w).mpr ⟨hw, hc⟩)]
          · have hwm := (hi.mark w (nbr_vertex hg hvi hw)).mp hc
            rw [hold w hwm]
            exact hbound w hwm
    obtain ⟨s', l', n', h8, h9, h11, h10⟩ := ih (next ++ new') (D ++ [i]) l1 s1 hi2 hlv2 hq1
    refine ⟨s', l', n', ?_, by simpa using h9, by simpa using h11, by simpa using h10⟩
    unfold bfsQueue
    rw [hs1, Res.ok_bind, at_row hvi, Res.ok_bind, h1, Res.ok_bind]
    simp only []
    rw [h6, Res.ok_bind, h8]

theorem bfsLoop_spec (hg : Symmetric g) (hr : Vertex g root) (hv : Good g v root Q) :
    ∀ (n : Nat) (iLayer : Int) (cur D layer : List Int) (s : σ), 0 ≤ iLayer → g.length ≤ D.length + n → Inv g root layer D cur → Lev g root layer iLayer D cur [] → Q D s →
      ∃ s' layer' D' l, bfsLoop g v n iLayer cur (s, layer) = .ok (s', layer') ∧ Inv g root layer' D' [] ∧ Lev g root layer' l D' [] [] ∧ Q D' s' := by
  intro n
  induction n with
  | zero =>
    intro iLayer cur D layer s hl hn hi hlv hq
    have hlen := length_le hi.nodup fun w hw => reach_vertex hg hr (hi.reach w hw)
    rw [List.length_append] at hlen
    have : cur = [] := List.eq_nil_of_length_eq_zero (by omega)
    subst this
    exact ⟨s, layer, D, iLayer, rfl, hi, hlv, hq⟩
  | succ n ih =>
    intro iLayer cur D layer s hl hn hi hlv hq
    unfold bfsLoop
    cases cur with
    | nil => exact ⟨s, layer, D, iLayer, rfl, hi, hlv, hq⟩
    | cons c cs =>
      obtain ⟨s', l', n', h1, h2, h7, h3⟩ := bfsQueue_spec hg hr hv iLayer hl (c :: cs) [] D layer s (by simpa using hi) hlv hq
      obtain ⟨s2, l2, D2, l3, h4, h5, h8, h6⟩ := ih (iLayer + 1) n' (D ++ (c :: cs)) l' s' (by omega)
        (by rw [List.length_append, List.length_cons]; omega) h2 h7.shift h3
      refine ⟨s2, l2, D2, l3, ?_, h5, h8, h6⟩
      rw [h1]
      exact h4

/-- A search from a vertex visits what can be reached from it, each vertex once. -/
theorem bfs_spec (hg : Symmetric g) (hr : Vertex g root) (hv : Good g v root Q) {s : σ} (hq : Q [] s) :
    ∃ s' layer D, bfs g v root s = .ok (s', layer) ∧ Q D s' ∧ D.Nodup ∧ (∀ w, w ∈ D ↔ Reach g root w) ∧
      (∀ (a : Nat) x, D[a]? = some x → a = 0 ∨ ∃ q w, q < a ∧ D[q]? = some w ∧ x ∈ nbr g w) ∧
      (∀ (a b p : Nat) x y z, a < b → D[a]? = some x → D[b]? = some y → D[p]? = some z → y ∈ nbr g z →
        a = 0 ∨ ∃ q w, q ≤ p ∧ D[q]? = some w ∧ x ∈ nbr g w) ∧
      layer.length = g.length ∧ ∀ w, Vertex g w → Distance g root w (entry layer w) := by
  have hi : Inv g root ((List.replicate g.length (-1 : Int)).set root.toNat 0) [] ([root] ++ []) := by
    refine ⟨by simp, by simp, ?_, ?_, by simp, by simp, ?_, by simp⟩
    · intro w hw
      simp only [List.nil_append, List.append_nil, List.mem_singleton] at hw
      exact hw ▸ .refl
    · intro w hw
      rw [entry_set _ _ hr.1 (by simpa using hr.2)]
      by_cases e : w = root
      · simp [e]
      · rw [if_neg e, entry_eq hw.1 (by rw [List.length_replicate]; have := hw.2; have := hw.1; omega)]
        simp [e]
    · intro a x hx
      have := (List.getElem?_eq_some_iff.mp hx).1
      simp only [List.nil_append, List.append_nil, List.length_singleton] at this
      omega
  have hlv : Lev g root ((List.replicate g.length (-1 : Int)).set root.toNat 0) 0 [] [root] [] := by
    have h0 : entry ((List.replicate g.length (-1 : Int)).set root.toNat 0) root = 0 := by
      rw [entry_set _ _ hr.1 (by simpa using hr.2), if_pos rfl]
    refine ⟨by simp, ?_, by simp, h0, ?_, by simp⟩
    · intro w hw; rw [List.mem_singleton] at hw; rw [hw, h0]
    · intro w hw
      have : w = root := by simpa using hw
      subst this
      exact ⟨0, h0, .refl⟩
  obtain ⟨s', l', D, ll, h1, h2, hL, h3⟩ := bfsLoop_spec hg hr hv g.length 0 [root] [] _ s (by omega) (by simp) (by simpa using hi) hlv hq
  have hall : ∀ w, Reach g root w → w ∈ D := by
    intro w h
    induction h with
    | refl => simpa using h2.start
    | step _ hw ih => simpa using h2.closed _ ih _ hw
  have hroot : entry l' root ≤ 0 := by rw [hL.zero]
  refine ⟨s', l', D, ?_, h3, by simpa using h2.nodup, ?_, ?_, ?_, h2.len, ?_⟩
  · unfold bfs
    rw [if_neg (by have := hr.1; have := hr.2; omega), setI_ok _ _ hr.1 (by simpa using hr.2), Res.ok_bind, h1]
  · intro w
    refine ⟨fun h => h2.reach w (by simpa using h), fun h => ?_⟩
    induction h with
    | refl => simpa using h2.start
    | step _ hw ih => simpa using h2.closed _ ih _ hw
  · intro a x hx
    rcases h2.first a x (by simpa using hx) with h | ⟨q, w, _, hq, hw, h⟩
    · exact Or.inl h
    · exact Or.inr ⟨q, w, hq, by simpa using hw, h⟩
  · intro a b p x y z hab hx hy hz hyz
    have hp := (List.getElem?_eq_some_iff.mp hz).1
    rcases h2.mono a b p x y z hab (by simpa using hx) (by simpa using hy) (by simpa using hz) hp hyz with h | ⟨q, w, hq, hw, h⟩
    · exact Or.inl h
    · exact Or.inr ⟨q, w, hq, by simpa using hw, h⟩
  · intro w hw
    by_cases hc : Reach g root w
    · right
      refine ⟨hL.walk w (by simpa using hall w hc), fun n hn => ?_⟩
      clear hw hc
      induction hn with
      | refl => simpa using hroot
      | step hv hw ih =>
        have hm := hall _ (walk_reach hv)
        have := hL.edge _ hm _ hw
        push_cast
        omega
    · left
      refine ⟨?_, hc⟩
      apply Classical.byContradiction
      intro hne
      exact hc (h2.reach w ((h2.mark w hw).mp hne))

end DNDSR.RCM
