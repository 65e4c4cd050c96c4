import Verif.Proof.RCM

/-!
# The numbering
-/

namespace DNDSR.RCM

variable {g : Graph}

theorem toInt32_id {x : Int} (h0 : 0 ≤ x) (h : x < 2 ^ 31) : toInt32 x = x := by
  unfold toInt32; omega

theorem seek_good (hg : Symmetric g) {root : Int} (hr : Vertex g root) :
    Good g (seekVisitor g) root (fun _ s => Reach g root s.root) := by
  refine ⟨?_, by intro c hc; exact absurd hc (by simp [seekVisitor])⟩
  intro D s i l hs _ hi
  simp only [seekVisitor]
  rw [at_row (reach_vertex hg hr hi), Res.ok_bind]
  refine ⟨_, rfl, ?_⟩
  generalize hs2 : (if l > s.layer then ({ degree := (nbr g i).length, layer := l, root := i } : Seek) else s) = s2
  have h2 : Reach g root s2.root := by
    rw [← hs2]; split
    · exact hi
    · exact hs
  show Reach g root (if l = s2.layer then (if (nbr g i).length < s2.degree then { s2 with degree := (nbr g i).length, root := i } else s2) else s2).root
  split
  · split
    · exact hi
    · exact h2
  · exact h2

theorem predMin_ok (num layer : List Int) (hn : num.length = layer.length) : ∀ (row : List Int) (m : Int),
    (∀ w ∈ row, 0 ≤ w ∧ w < layer.length) → ∃ r, predMin num layer row m = .ok r := by
  intro row
  induction row with
  | nil => intro m _; exact ⟨m, rfl⟩
  | cons j js ih =>
    intro m h
    have hj := h j (by simp)
    unfold predMin
    rw [at_entry layer hj.1 hj.2, Res.ok_bind]
    split
    · rw [at_entry num hj.1 (by rw [hn]; exact hj.2), Res.ok_bind]
      exact ih _ fun w hw => h w (by simp [hw])
    · exact ih _ fun w hw => h w (by simp [hw])

/-- The vertices in `V` have been numbered, in the order of the list. -/
structure Numbered (g : Graph) (V : List Int) (s : Fill) : Prop where
  len : s.num.length = g.length
  nodup : V.Nodup
  vertex : ∀ w ∈ V, Vertex g w
  num : ∀ k (h : k < V.length), entry s.num V[k] = k
  top : s.top = V.length
  left : s.unvisited = ((List.range g.length).map Int.ofNat).filter fun w => decide (w ∉ V)

theorem mem_left {V : List Int} {s : Fill} (h : Numbered g V s) (w : Int) : w ∈ s.unvisited ↔ Vertex g w ∧ w ∉ V := by
  rw [h.left, List.mem_filter, List.mem_map]
  simp only [decide_eq_true_eq]
  constructor
  · rintro ⟨⟨k, hk, rfl⟩, h2⟩
    exact ⟨⟨Int.natCast_nonneg k, by have := List.mem_range.mp hk; show (k : Int) < _; omega⟩, h2⟩
  · rintro ⟨⟨h0, h1⟩, h2⟩
    exact ⟨⟨w.toNat, List.mem_range.mpr (by omega), by show ((w.toNat : Nat) : Int) = w; omega⟩, h2⟩

theorem numbered_step {V : List Int} {s : Fill} (h : Numbered g V s) {i : Int} (hi : Vertex g i) (hn : i ∉ V) :
    Numbered g (V ++ [i]) { num := s.num.set i.toNat s.top, top := s.top + 1, unvisited := s.unvisited.filter fun j => decide (j ≠ i) } := by
  refine ⟨by simp [h.len], ?_, ?_, ?_, by simp [h.top], ?_⟩
  · rw [List.nodup_append]
    exact ⟨h.nodup, List.nodup_singleton i, by rintro a ha b hb rfl; exact hn (List.mem_singleton.mp hb ▸ ha)⟩
  · intro w hw
    rw [List.mem_append, List.mem_singleton] at hw
    rcases hw with hw | rfl
    · exact h.vertex w hw
    · exact hi
  · intro k hk
    rw [entry_set _ _ hi.1 (by rw [h.len]; exact hi.2)]
    by_cases hkv : k < V.length
    · rw [List.getElem_append_left hkv, if_neg (by intro e; exact hn (e ▸ List.getElem_mem hkv)), h.num k hkv]
    · have : k = V.length := by rw [List.length_append, List.length_singleton] at hk; omega
      subst this
      simp [h.top]
  · show List.filter _ s.unvisited = _
    rw [h.left, List.filter_filter]
    apply List.filter_congr
    intro w _
    rw [← Bool.decide_and]
    apply decide_eq_decide.mpr
    simp only [List.mem_append, List.mem_singleton, not_or, ne_eq]
    tauto

/-- The order of a breadth first search: a vertex comes first in its part, or next to one that came before; parts are not
mixed; the first neighbour of an earlier vertex does not come after a neighbour of a later one. -/
structure SearchOrder (g : Graph) (V : List Int) : Prop where
  next : ∀ (k : Nat) x, V[k]? = some x → (∀ l w, l < k → V[l]? = some w → ¬ Reach g x w) ∨ ∃ l u, l < k ∧ V[l]? = some u ∧ x ∈ nbr g u
  block : ∀ (i j k : Nat) x y z, i < j → j < k → V[i]? = some x → V[j]? = some y → V[k]? = some z → Reach g x z → Reach g x y
  mono : ∀ (a b p : Nat) x y z, a < b → V[a]? = some x → V[b]? = some y → V[p]? = some z → Reach g x y → y ∈ nbr g z →
    (∀ l w, l < a → V[l]? = some w → ¬ Reach g x w) ∨ ∃ q w, q ≤ p ∧ V[q]? = some w ∧ x ∈ nbr g w

theorem fill_good (hg : Symmetric g) {root : Int} (hr : Vertex g root) {V : List Int} (hc : ∀ w, Reach g root w → w ∉ V) :
    Good g (fillVisitor g) root (fun D s => Numbered g (V ++ D) s) := by
  refine ⟨?_, ?_⟩
  · intro D s i l hs hi hri
    have hvi := reach_vertex hg hr hri
    have hn : i ∉ V ++ D := by rw [List.mem_append]; rintro (h | h); exacts [hc i hri h, hi h]
    refine ⟨_, ?_, by rw [← List.append_assoc]; exact numbered_step hs hvi hn⟩
    simp only [fillVisitor]
    rw [setI_ok _ _ hvi.1 (by rw [hs.len]; exact hvi.2), Res.ok_bind, if_pos ((mem_left hs i).mpr ⟨hvi, hn⟩)]
  · intro c hcm D s layer i j hs hl hi hj
    simp only [fillVisitor, Option.some.injEq] at hcm
    subst hcm
    obtain ⟨a, ha⟩ := predMin_ok s.num layer (by rw [hs.len, hl]) (nbr g i) g.length (fun w hw => by rw [hl]; exact nbr_vertex hg hi hw)
    obtain ⟨b, hb⟩ := predMin_ok s.num layer (by rw [hs.len, hl]) (nbr g j) g.length (fun w hw => by rw [hl]; exact nbr_vertex hg hj hw)
    simp only [at_row hi, at_row hj, Res.ok_bind, ha, hb]
    exact ⟨_, rfl⟩

theorem reach_trans {u v w : Int} (h1 : Reach g u v) (h2 : Reach g v w) : Reach g u w := by
  induction h2 with
  | refl => exact h1
  | step _ hw ih => exact .step ih hw

theorem reach_symm (hg : Symmetric g) {u v : Int} (hu : Vertex g u) (h : Reach g u v) : Reach g v u := by
  induction h with
  | refl => exact .refl
  | step hv hw ih => exact reach_trans (.step .refl (nbr_symm hg (reach_vertex hg hu hv) hw)) ih

theorem closed_reach {V : List Int} (hV : ∀ u ∈ V, ∀ w ∈ nbr g u, w ∈ V) {u w : Int} (hu : u ∈ V) (h : Reach g u w) : w ∈ V := by
  induction h with
  | refl => exact hu
  | step _ hw ih => exact hV _ ih _ hw

theorem order_append (hg : Symmetric g) {V D : List Int} {root : Int} (hr : Vertex g root) (hV : ∀ u ∈ V, ∀ w ∈ nbr g u, w ∈ V)
    (hVv : ∀ u ∈ V, Vertex g u) (hnd : (V ++ D).Nodup)
    (ho : SearchOrder g V) (hD : ∀ w, w ∈ D ↔ Reach g root w)
    (hf : ∀ (a : Nat) x, D[a]? = some x → a = 0 ∨ ∃ q w, q < a ∧ D[q]? = some w ∧ x ∈ nbr g w)
    (hm : ∀ (a b p : Nat) x y z, a < b → D[a]? = some x → D[b]? = some y → D[p]? = some z → y ∈ nbr g z →
        a = 0 ∨ ∃ q w, q ≤ p ∧ D[q]? = some w ∧ x ∈ nbr g w) : SearchOrder g (V ++ D) := by
  have hdis : ∀ w ∈ V, w ∉ D := fun w hw hc => (List.nodup_append.mp hnd).2.2 w hw w hc rfl
  have hDv : ∀ w ∈ D, Vertex g w := fun w hw => reach_vertex hg hr ((hD w).mp hw)
  have hVD : ∀ u ∈ V, ∀ w ∈ D, ¬ Reach g u w := fun u hu w hw h => hdis w (closed_reach hV hu h) hw
  have hDV : ∀ u ∈ D, ∀ w ∈ V, ¬ Reach g u w := fun u hu w hw h => hVD w hw u hu (reach_symm hg (hDv u hu) h)
  have hl : ∀ {k : Nat} {x}, k < V.length → (V ++ D)[k]? = some x → V[k]? = some x ∧ x ∈ V := by
    intro k x hk h
    rw [List.getElem?_append_left hk] at h
    exact ⟨h, List.mem_of_getElem? h⟩
  have hrr : ∀ {k : Nat} {x}, ¬ k < V.length → (V ++ D)[k]? = some x → D[k - V.length]? = some x ∧ x ∈ D := by
    intro k x hk h
    rw [List.getElem?_append_right (by omega)] at h
    exact ⟨h, List.mem_of_getElem? h⟩
  have hput : ∀ {q : Nat} {w}, D[q]? = some w → (V ++ D)[V.length + q]? = some w := by
    intro q w h
    rw [List.getElem?_append_right (by omega), Nat.add_sub_cancel_left]; exact h
  have hputl : ∀ {q : Nat} {w}, V[q]? = some w → (V ++ D)[q]? = some w := by
    intro q w h
    rw [List.getElem?_append_left (List.getElem?_eq_some_iff.mp h).1]; exact h
  constructor
  · intro k x hx
    by_cases hk : k < V.length
    · obtain ⟨h1, h2⟩ := hl hk hx
      rcases ho.next k x h1 with h | ⟨l, u, hlk, hu, h⟩
      · exact Or.inl fun l w hlk hw => h l w hlk (hl (by omega) hw).1
      · exact Or.inr ⟨l, u, hlk, hputl hu, h⟩
    · obtain ⟨h1, h2⟩ := hrr hk hx
      rcases hf _ x h1 with h | ⟨q, w, hq, hw, h⟩
      · exact Or.inl fun l w hlk hw => hDV x h2 w (hl (by omega) hw).2
      · exact Or.inr ⟨V.length + q, w, by omega, hput hw, h⟩
  · intro i j k x y z hij hjk hx hy hz h
    by_cases hk : k < V.length
    · exact ho.block i j k x y z hij hjk (hl (by omega) hx).1 (hl (by omega) hy).1 (hl hk hz).1 h
    · have hzD := (hrr hk hz).2
      by_cases hi : i < V.length
      · exact absurd h (hVD x (hl hi hx).2 z hzD)
      · have h1 := (hD x).mp (hrr hi hx).2
        have h2 := (hD y).mp (hrr (by omega) hy).2
        exact reach_trans (reach_symm hg hr h1) h2
  · intro a b p x y z hab hx hy hz hxy hyz
    by_cases hb : b < V.length
    · have hyV := hl hb hy
      have hxV := hl (by omega : a < V.length) hx
      have hzv : Vertex g z := by
        rcases List.mem_append.mp (List.mem_of_getElem? hz) with h | h
        · exact hVv z h
        · exact hDv z h
      have hzV : z ∈ V := hV y hyV.2 z (nbr_symm hg hzv hyz)
      have hp : p < V.length := by
        apply Classical.byContradiction
        intro hc
        exact hdis z hzV (hrr hc hz).2
      rcases ho.mono a b p x y z hab hxV.1 hyV.1 (hl hp hz).1 hxy hyz with h | ⟨q, w, hq, hw, h⟩
      · exact Or.inl fun l w hlk hw => h l w hlk (hl (by omega) hw).1
      · exact Or.inr ⟨q, w, hq, hputl hw, h⟩
    · have hyD := hrr hb hy
      by_cases ha : a < V.length
      · exact absurd hxy (hVD x (hl ha hx).2 y hyD.2)
      · have hxD := hrr ha hx
        by_cases hp : p < V.length
        · exact absurd (Reach.step .refl hyz) (hVD z (hl hp hz).2 y hyD.2)
        · have hzD := hrr hp hz
          rcases hm _ _ _ x y z (by omega) hxD.1 hyD.1 hzD.1 hyz with h | ⟨q, w, hq, hw, h⟩
          · exact Or.inl fun l w hlk hw => hDV x hxD.2 w (hl (by omega) hw).2
          · exact Or.inr ⟨V.length + q, w, by omega, hput hw, h⟩

/-- A set closed under taking neighbours is not entered from outside. -/
theorem reach_out (hg : Symmetric g) {V : List Int} (hV : ∀ u ∈ V, ∀ w ∈ nbr g u, w ∈ V) {root w : Int} (hr : Vertex g root) (h0 : root ∉ V)
    (h : Reach g root w) : w ∉ V := by
  induction h with
  | refl => exact h0
  | step hv hw ih => intro hc; exact ih (hV _ hc _ (nbr_symm hg (reach_vertex hg hr hv) hw))

/-- All parts are visited. -/
theorem partLoop_spec (hg : Symmetric g) (hsz : g.length ≤ 2 ^ 31) : ∀ (n : Nat) (root : Int) (V : List Int) (s : Fill), Numbered g V s →
    SearchOrder g V → (∀ u ∈ V, ∀ w ∈ nbr g u, w ∈ V) → Vertex g root → root ∉ V → g.length ≤ V.length + n →
    ∃ s' V', partLoop g n root s = .ok s' ∧ Numbered g V' s' ∧ SearchOrder g V' ∧ ∀ w, Vertex g w → w ∈ V' := by
  intro n
  induction n with
  | zero =>
    intro root V s hs ho hV hr hrV hn
    have := length_le (List.nodup_cons.mpr ⟨hrV, hs.nodup⟩) (n := g.length) (by
      intro w hw
      rcases List.mem_cons.mp hw with rfl | hw
      · exact hr
      · exact hs.vertex w hw)
    rw [List.length_cons] at this
    omega
  | succ n ih =>
    intro root V s hs ho hV hr hrV hn
    unfold partLoop
    have h32 : ∀ x, Vertex g x → toInt32 x = x := fun x hx => toInt32_id hx.1 (by have := hx.2; omega)
    rw [at_row hr, Res.ok_bind, h32 root hr]
    obtain ⟨k, l1, D1, h1, h2, h3, h4, _⟩ := bfs_spec hg hr (seek_good hg hr) (s := { degree := (nbr g root).length, layer := 0, root := root }) .refl
    rw [h1, Res.ok_bind]
    simp only []
    have hk : Vertex g k.root := reach_vertex hg hr h2
    have hkV : k.root ∉ V := reach_out hg hV hr hrV h2
    rw [h32 _ hk]
    obtain ⟨s', l2, D, h5, h6, h7, h8, h9, h10, _⟩ := bfs_spec hg hk (fill_good hg hk (V := V) fun w hw => reach_out hg hV hk hkV hw) (s := s) (by simpa using hs)
    rw [h5, Res.ok_bind]
    simp only []
    have hso := order_append hg hk hV hs.vertex h6.nodup ho h8 h9 h10
    have hcl : ∀ u ∈ V ++ D, ∀ w ∈ nbr g u, w ∈ V ++ D := by
      intro u hu w hw
      rw [List.mem_append] at hu ⊢
      rcases hu with hu | hu
      · exact Or.inl (hV u hu w hw)
      · exact Or.inr ((h8 w).mpr (.step ((h8 u).mp hu) hw))
    cases hu : s'.unvisited with
    | nil =>
      refine ⟨s', V ++ D, rfl, h6, hso, fun w hw => ?_⟩
      apply Classical.byContradiction
      intro hc
      have := (mem_left h6 w).mpr ⟨hw, hc⟩
      rw [hu] at this
      simp at this
    | cons u us =>
      have hm := (mem_left h6 u).mp (by rw [hu]; simp)
      have hD : D ≠ [] := by
        intro e
        have := (h8 k.root).mpr .refl
        rw [e] at this
        simp at this
      have : 0 < D.length := List.length_pos_of_ne_nil hD
      exact ih u (V ++ D) s' h6 hso hcl hm.1 hm.2 (by rw [List.length_append]; omega)

theorem cuthillMcKee_spec (hg : Symmetric g) (hsz : g.length ≤ 2 ^ 31) {root : Int} (hr : g.length = 0 ∨ Vertex g root) (num : List Int)
    (hnum : num.length = g.length) : ∃ (r : List Int) (V : List Int), cuthillMcKee g root num = .ok r ∧ SearchOrder g V ∧ r.length = g.length ∧ V.Nodup ∧ (∀ w, w ∈ V ↔ Vertex g w) ∧
      ∀ (k : Nat) (h : k < V.length), entry r V[k] = k := by
  have h0 : Numbered g [] { num := num, top := 0, unvisited := (List.range g.length).map Int.ofNat } :=
    ⟨hnum, List.nodup_nil, by simp, by simp, by simp, by simp⟩
  unfold cuthillMcKee
  rcases hr with hz | hr
  · refine ⟨num, [], ?_, ⟨by simp, by simp, by simp⟩, hnum, List.nodup_nil, ?_, by simp⟩
    · have h : partLoop g g.length root { num := num, top := 0, unvisited := (List.range g.length).map Int.ofNat } =
          .ok { num := num, top := 0, unvisited := (List.range g.length).map Int.ofNat } := by rw [hz]; rfl
      rw [h, Res.ok_bind]
    · intro w; simp [Vertex]; omega
  · obtain ⟨s', V, h1, h2, ho, h3⟩ := partLoop_spec hg hsz g.length root [] _ h0 ⟨by simp, by simp, by simp⟩ (by simp) hr (by simp) (by simp)
    exact ⟨s'.num, V, by rw [h1, Res.ok_bind], ho, h2.len, h2.nodup, fun w => ⟨h2.vertex w, h3 w⟩, h2.num⟩

end DNDSR.RCM
