import Verif.Spec.PairFile
import Verif.Props.SerArray
import Verif.Proof.GhostMap
import Verif.Props.IndexMapping
import Mathlib.Tactic.IntervalCases
import Mathlib.Data.List.Forall2

/-!
# C98: partitioned meshes and restarts are restored
-/

namespace DNDSR.PSer

open DNDSR.Defines DNDSR.SerArr DNDSR.IMap
open DNDSR.Arr hiding Array

variable {α A D V : Type}

theorem uniqueGo_strict : ∀ (l : List Int) (p : Int), (p :: l).Pairwise (· < ·) → uniqueGo p l = l
  | [], _, _ => rfl
  | x :: xs, p, h => by
    rw [List.pairwise_cons] at h
    rw [uniqueGo, if_neg (by have := h.1 x (by simp); omega), uniqueGo_strict xs x h.2]

theorem unique_strict (l : List Int) (h : l.Pairwise (· < ·)) : unique (sortIdx l) = l := by
  rw [sortIdx_of_sorted l (h.imp fun h => le_of_lt h)]
  cases l with
  | nil => rfl
  | cons x xs => rw [unique, uniqueGo_strict xs x h]

/-- asking again for the ghosts of a mapping made by pulling gives the same mapping -/
theorem createPull_again {lens : List Nat} {g : GOM} (hg : Built lens g) {reqs : List (List Int)} (hn : reqs.length = lens.length) {maps : List Map}
    (h : createPull g lens reqs = .ok maps) : createPull g lens (maps.map Map.ghostIndex) = .ok maps := by
  obtain ⟨hl, hm⟩ := createPull_spec hg reqs hn maps h
  have key : ∀ (xs ys : List (List Int)) (k : Nat), List.Forall₂ (fun x y => unique (sortIdx x) = unique (sortIdx y)) xs ys →
      forRanks (fun _ req => pullLocal g lens.length req) k xs = forRanks (fun _ req => pullLocal g lens.length req) k ys := by
    intro xs ys k h
    induction h generalizing k with
    | nil => rfl
    | cons h1 _ ih => simp only [forRanks]; rw [ih (k + 1)]; unfold pullLocal; rw [h1]
  unfold createPull at h ⊢
  rw [show (maps.map Map.ghostIndex).length = lens.length by simp [hl]]
  rw [hn] at h
  rw [key (maps.map Map.ghostIndex) reqs 0, h]
  rw [List.forall₂_iff_get]
  refine ⟨by simp [hl, hn], fun i h1 h2 => ?_⟩
  have hi : i < maps.length := by simpa using h1
  obtain ⟨q, hq, hloc⟩ := (hm i maps[i] (List.getElem?_eq_getElem hi)).req
  have hq' : reqs.get ⟨i, h2⟩ = q := by
    obtain ⟨_, h⟩ := List.getElem?_eq_some_iff.1 hq
    exact h
  rw [hq']
  simp only [List.get_eq_getElem, List.getElem_map]
  have hgi : maps[i].ghostIndex = unique (sortIdx q) := hloc.gi
  rw [hgi, unique_strict _ (pulling_spec q).1]

/-- what writing and reading one array have to do -/
def Good (write : A → Res (A × D)) (read : A → D → Res A) (showsW showsR : A → V → Prop) (a : A) (v : V) : Prop :=
  ∃ a' d, write a = .ok (a', d) ∧ showsW a' v ∧ ∀ b, ∃ b', read b d = .ok b' ∧ showsR b' v

theorem some_of {β : Type} {l : List β} {n r : Nat} (h : l.length = n) (hr : r < n) : ∃ x, l[r]? = some x := ⟨_, List.getElem?_eq_getElem (h.symm ▸ hr)⟩

theorem lt_of {β : Type} {l : List β} {n r : Nat} {x : β} (h : l.length = n) (hx : l[r]? = some x) : r < n := h ▸ (List.getElem?_eq_some_iff.1 hx).1

theorem pairs_roundtrip {write : A → Res (A × D)} {read : A → D → Res A} {size : A → Nat} {len : V → Nat} {showsW showsR : A → V → Prop}
    (hlen : ∀ b v, showsR b v → size b = len v) {xs : List ((A × A) × Option Map)} {fv sv : List V} {maps : List Map}
    (hk : Kept (Good write read showsW showsR) xs fv sv maps) (hp : Pulled (fv.map len) maps) :
    ∃ ys, writePairs write true xs = .ok ys ∧ ys.length = xs.length ∧ Kept showsW (List.zipWith (fun y x => (y.1, x.2)) ys xs) fv sv maps ∧
      ∀ objs, objs.length = xs.length → ∃ y, readPairs read size true objs (ys.map (·.2)) = .ok y ∧ Kept showsR y fv sv maps := by
  obtain ⟨⟨e1, e2, e3⟩, hf, hs, hm⟩ := hk
  have hmap : ∀ (r : Nat) (x : (A × A) × Option Map), xs[r]? = some x → ∃ m, maps[r]? = some m ∧ x.2 = some m := by
    intro r x hx
    have : (xs.map (·.2))[r]? = some x.2 := by rw [List.getElem?_map, hx]; rfl
    rw [hm, List.getElem?_map] at this
    cases h : maps[r]? with
    | none => rw [h] at this; cases this
    | some m => rw [h] at this; exact ⟨m, rfl, (Option.some.inj this).symm⟩
  -- what a rank writes
  have hw : ∀ (r : Nat) (x : (A × A) × Option Map), xs[r]? = some x → ∃ (y : (A × A) × PDoc D) (m : Map) (v w : V), writePair write true xs.length r x = .ok y ∧
      maps[r]? = some m ∧ x.2 = some m ∧ fv[r]? = some v ∧ sv[r]? = some w ∧ showsW y.1.1 v ∧ showsW y.1.2 w ∧ y.2.rank = r ∧ y.2.size = xs.length ∧
      y.2.pig = some m.ghostIndex ∧ (∀ b, ∃ b', read b y.2.father = .ok b' ∧ showsR b' v) ∧ (∀ b, ∃ b', read b y.2.son = .ok b' ∧ showsR b' w) := by
    intro r x hx
    have hr := lt_of e1 hx
    obtain ⟨v, hv⟩ := some_of e2 hr
    obtain ⟨w, hw⟩ := some_of e3 hr
    obtain ⟨m, hm1, hm2⟩ := hmap r x hx
    obtain ⟨a, d, a1, a2, a3⟩ := hf r x v hx hv
    obtain ⟨b, d', b1, b2, b3⟩ := hs r x w hx hw
    refine ⟨((a, b), ⟨r, xs.length, d, d', some m.ghostIndex⟩), m, v, w, ?_, hm1, hm2, hv, hw, a2, b2, rfl, rfl, rfl, a3, b3⟩
    unfold writePair
    rw [Res.assert_true _ (by rw [hm2]; simp), Res.ok_bind, a1, Res.ok_bind, b1, Res.ok_bind, hm2]
    rfl
  obtain ⟨ys, hys⟩ := forRanks_total (fun r x => writePair write true xs.length r x) xs 0 fun i x hx => by
    obtain ⟨y, m, v, w, h, -⟩ := hw i x hx
    exact ⟨y, by rw [Nat.zero_add]; exact h⟩
  obtain ⟨ly, hy⟩ := (forRanks_ok _ _ _ _).1 hys
  have hyx : ∀ (r : Nat) (y : (A × A) × PDoc D), ys[r]? = some y → ∃ x, xs[r]? = some x ∧ writePair write true xs.length r x = .ok y := by
    intro r y h
    obtain ⟨x, hx⟩ := some_of (rfl : xs.length = xs.length) (lt_of ly h)
    obtain ⟨y', h1, h2⟩ := hy r x hx
    rw [h] at h1
    cases h1
    rw [Nat.zero_add] at h2
    exact ⟨x, hx, h2⟩
  refine ⟨ys, hys, ly, ⟨⟨by simp [ly, e1], e2, e3⟩, ?_, ?_, ?_⟩, ?_⟩
  · intro r z v hz hv
    rw [List.getElem?_zipWith] at hz
    cases h1 : ys[r]? with
    | none => rw [h1] at hz; cases hz
    | some y =>
      obtain ⟨x, hx, hwr⟩ := hyx r y h1
      obtain ⟨y', m, v', w, g1, g2, g3, g4, g5, g6, g7, -⟩ := hw r x hx
      rw [hwr] at g1
      cases g1
      rw [h1, hx] at hz
      cases hz
      rw [hv] at g4
      cases g4
      exact g6
  · intro r z v hz hv
    rw [List.getElem?_zipWith] at hz
    cases h1 : ys[r]? with
    | none => rw [h1] at hz; cases hz
    | some y =>
      obtain ⟨x, hx, hwr⟩ := hyx r y h1
      obtain ⟨y', m, v', w, g1, g2, g3, g4, g5, g6, g7, -⟩ := hw r x hx
      rw [hwr] at g1
      cases g1
      rw [h1, hx] at hz
      cases hz
      rw [hv] at g5
      cases g5
      exact g7
  · rw [← hm]
    refine List.ext_getElem (by simp [ly]) fun i h1 h2 => ?_
    simp
  · intro objs hobjs
    -- what a rank reads
    have hr : ∀ (r : Nat) (o : A × A), objs[r]? = some o → ∃ (l : (A × A) × List Int) (m : Map) (v w : V),
        (do let d ← file (List.map (fun y : (A × A) × PDoc D => y.2) ys) r; readLocal read true objs.length r o d) = .ok l ∧ maps[r]? = some m ∧ fv[r]? = some v ∧ sv[r]? = some w ∧
        showsR l.1.1 v ∧ showsR l.1.2 w ∧ l.2 = m.ghostIndex := by
      intro r o ho
      obtain ⟨y, hyr⟩ := some_of (ly.trans hobjs.symm) (lt_of rfl ho)
      obtain ⟨x, hx, hwr⟩ := hyx r y hyr
      obtain ⟨y', m, v, w, g1, g2, g3, g4, g5, g6, g7, g8, g9, g10, g11, g12⟩ := hw r x hx
      rw [hwr] at g1
      cases g1
      obtain ⟨a, a1, a2⟩ := g11 o.1
      obtain ⟨b, b1, b2⟩ := g12 o.2
      refine ⟨((a, b), m.ghostIndex), m, v, w, ?_, g2, g4, g5, a2, b2, rfl⟩
      unfold file
      rw [List.getElem?_map, hyr]
      simp only [Option.map_some, Res.ok_bind]
      unfold readLocal
      rw [Res.assert_true _ ⟨g8, by rw [g9, hobjs]⟩, Res.ok_bind, a1, Res.ok_bind, b1, Res.ok_bind, if_pos rfl, g10]
    obtain ⟨ls, hls⟩ := forRanks_total (fun r o => do let d ← file (List.map (fun y : (A × A) × PDoc D => y.2) ys) r; readLocal read true objs.length r o d) objs 0 fun i o ho => by
      obtain ⟨l, m, v, w, h, -⟩ := hr i o ho
      exact ⟨l, by rw [Nat.zero_add]; exact h⟩
    obtain ⟨ll, hl⟩ := (forRanks_ok _ _ _ _).1 hls
    have hlo : ∀ (r : Nat) (l : (A × A) × List Int), ls[r]? = some l → ∃ (m : Map) (v w : V), maps[r]? = some m ∧ fv[r]? = some v ∧ sv[r]? = some w ∧
        showsR l.1.1 v ∧ showsR l.1.2 w ∧ l.2 = m.ghostIndex := by
      intro r l h
      obtain ⟨o, ho⟩ := some_of (rfl : objs.length = objs.length) (lt_of ll h)
      obtain ⟨l', h1, h2⟩ := hl r o ho
      rw [h] at h1
      cases h1
      rw [Nat.zero_add] at h2
      obtain ⟨l', m, v, w, h, hrest⟩ := hr r o ho
      rw [h] at h2
      cases h2
      exact ⟨m, v, w, hrest⟩
    have lm : ls.length = maps.length := by rw [ll, hobjs, e1]
    have elen : ls.map (fun x => size x.1.1) = fv.map len := by
      refine List.ext_getElem? fun r => ?_
      rw [List.getElem?_map, List.getElem?_map]
      cases h : ls[r]? with
      | none =>
        rw [List.getElem?_eq_none (by rw [e2, ← lm]; exact List.getElem?_eq_none_iff.1 h)]
        rfl
      | some l =>
        obtain ⟨m, v, w, -, h2, -, h4, -⟩ := hlo r l h
        rw [h2]
        simp only [Option.map_some, hlen _ _ h4]
    have epig : ls.map (·.2) = maps.map Map.ghostIndex := by
      refine List.ext_getElem? fun r => ?_
      rw [List.getElem?_map, List.getElem?_map]
      cases h : ls[r]? with
      | none =>
        rw [List.getElem?_eq_none (by rw [← lm]; exact List.getElem?_eq_none_iff.1 h)]
        rfl
      | some l =>
        obtain ⟨m, v, w, h1, -, -, -, -, h6⟩ := hlo r l h
        rw [h1]
        simp only [Option.map_some, h6]
    obtain ⟨g, reqs, hg, hn, hc⟩ := hp
    refine ⟨List.zipWith (fun x m => (x.1, some m)) ls maps, ?_, ⟨by simp [lm], e2, e3⟩, ?_, ?_, ?_⟩
    · unfold readPairs
      rw [hls, Res.ok_bind, if_pos rfl]
      simp only
      rw [elen, show setMPIAlignBcast ((fv.map len).map Int.ofNat) = .ok g from hg, Res.ok_bind, epig, createPull_again hg hn hc, Res.ok_bind]
    · intro r z v hz hv
      rw [List.getElem?_zipWith] at hz
      cases h1 : ls[r]? with
      | none => rw [h1] at hz; cases hz
      | some l =>
        obtain ⟨m, v', w, g1, g2, g3, g4, g5, -⟩ := hlo r l h1
        rw [h1, g1] at hz
        cases hz
        rw [hv] at g2
        cases g2
        exact g4
    · intro r z v hz hv
      rw [List.getElem?_zipWith] at hz
      cases h1 : ls[r]? with
      | none => rw [h1] at hz; cases hz
      | some l =>
        obtain ⟨m, v', w, g1, g2, g3, g4, g5, -⟩ := hlo r l h1
        rw [h1, g1] at hz
        cases hz
        rw [hv] at g3
        cases g3
        exact g5
    · refine List.ext_getElem (by simp [lm]) fun i h1 h2 => ?_
      simp

theorem good_array (z : α) {W R : STy} (hW : Valid W) (hR : Valid R) (pW : Plain W) (pR : Plain R) {a : Arr.Array α} {v : Val α}
    (h : Writable z W a v) (hc : Compatible W R v.width) : Good (writeArr z W) (readArr R) (Shows W) (Shows R) a v := by
  obtain ⟨h1, h2, h3, h4⟩ := h
  obtain ⟨a', d, b', e1, e2, -, -⟩ := array_roundtrip_partial z W R hW hR pW pR a h1 v h2 hc h3 h4 Arr.Array.empty
  refine ⟨a', d, e1, e2, fun b => ?_⟩
  obtain ⟨a'', d'', b', f1, f2, f3, f4⟩ := array_roundtrip_partial z W R hW hR pW pR a h1 v h2 hc h3 h4 b
  rw [e1] at f1
  cases f1
  exact ⟨b', f3, f4⟩

theorem Kept.mono {shows shows' : A → V → Prop} {xs : List ((A × A) × Option Map)} {fv sv : List V} {maps : List Map} (h : Kept shows xs fv sv maps)
    (hf : ∀ v ∈ fv, ∀ a, shows a v → shows' a v) (hs : ∀ v ∈ sv, ∀ a, shows a v → shows' a v) : Kept shows' xs fv sv maps :=
  ⟨h.ranks, fun r x v h1 h2 => hf v (List.mem_of_getElem? h2) _ (h.father r x v h1 h2),
    fun r x v h1 h2 => hs v (List.mem_of_getElem? h2) _ (h.son r x v h1 h2), h.map⟩

/-- **C98**, distributed arrays: what all ranks wrote, the same number of ranks read into any objects: all rows, those owned and the ghosts, and
the mappings are the same again; writing does not change what the arrays show.  (Partial: the mappings are those made from the rows to pull, and the
exceptions of C16 apply.) -/
theorem pair_roundtrip_partial (z : α) {W R : STy} (hW : Valid W) (hR : Valid R) (pW : Plain W) (pR : Plain R) {xs : Dist α} {fv sv : List (Val α)}
    {maps : List Map} (hk : Kept (Writable z W) xs fv sv maps) (hp : Pulled (fv.map fun w => w.rows.length) maps)
    (hc : ∀ v ∈ fv ++ sv, Compatible W R v.width) :
    ∃ xs' files, writeDist z W xs = .ok (xs', files) ∧ Kept (Shows W) xs' fv sv maps ∧
      ∀ objs : List (Arr.Array α × Arr.Array α), objs.length = xs.length →
        ∃ ys, readPairs (readArr R) Arr.Array.size true objs files = .ok ys ∧ Kept (Shows R) ys fv sv maps := by
  have hg : Kept (Good (writeArr z W) (readArr R) (Shows W) (Shows R)) xs fv sv maps := hk.mono
    (fun v hv a h => good_array z hW hR pW pR h (hc v (List.mem_append_left _ hv)))
    (fun v hv a h => good_array z hW hR pW pR h (hc v (List.mem_append_right _ hv)))
  obtain ⟨ys, h1, h2, h3, h4⟩ := pairs_roundtrip (size := Arr.Array.size) (len := fun w : Val α => w.rows.length) (fun b v h => h.size) hg hp
  refine ⟨_, _, ?_, h3, h4⟩
  unfold writeDist
  rw [h1, Res.ok_bind]

/-- the files cannot be read by another number of ranks -/
theorem wrong_number_aborts {write : A → Res (A × D)} {read : A → D → Res A} {size : A → Nat} {pig pig' : Bool} {xs : List ((A × A) × Option Map)}
    {ys : List ((A × A) × PDoc D)} (h : writePairs write pig xs = .ok ys) (objs : List (A × A)) (h0 : objs ≠ []) (hn : objs.length ≠ xs.length) :
    readPairs read size pig' objs (ys.map (·.2)) = .abort := by
  obtain ⟨o, os, rfl⟩ := List.exists_cons_of_ne_nil h0
  obtain ⟨ly, hy⟩ := (forRanks_ok _ _ _ _).1 h
  have : (do let d ← file (List.map (fun y : (A × A) × PDoc D => y.2) ys) 0; readLocal read pig' (o :: os).length 0 o d) = .abort := by
    cases ys with
    | nil => rfl
    | cons y ys =>
      obtain ⟨x, hx⟩ := some_of ly.symm (show 0 < (y :: ys).length by simp)
      obtain ⟨y', h1, h2⟩ := hy 0 x hx
      cases h1
      have hsz : y.2.size = xs.length := by
        unfold writePair at h2
        obtain ⟨_, _, h2⟩ := (Res.bind_ok_iff _ _ _).1 h2
        obtain ⟨f, _, h2⟩ := (Res.bind_ok_iff _ _ _).1 h2
        obtain ⟨s, _, h2⟩ := (Res.bind_ok_iff _ _ _).1 h2
        cases h2
        rfl
      simp only [file, List.map_cons, List.getElem?_cons_zero, Res.ok_bind, readLocal]
      rw [hsz]
      simp only [Res.assert, if_neg (show ¬ (y.2.rank = 0 ∧ xs.length = (o :: os).length) from fun h => hn h.2.symm), Res.abort_bind]
  unfold readPairs
  simp only [forRanks]
  rw [this]
  rfl

/-! ## meshes -/

theorem compatible_self (z : α) {t : STy} (h : Valid t) {a : Arr.Array α} {v : Val α} (hv : Writable z t a v) : Compatible t t v.width := by
  have hI := reachable_inv z h.lay hv.1
  have hw := represents_width hI hv.2.1
  refine ⟨rfl, rfl, fun hl => ?_, fun hl => ?_⟩
  · have := hw (by rw [hl]; simp)
    rw [this]
    simp only [stride, hl]
    rcases layout_cases t.ty h.lay with ⟨e, g⟩ | ⟨e, g⟩ | ⟨e, g, g'⟩ | ⟨e, g, g'⟩ | ⟨e, g, g'⟩ <;> rw [hl] at e <;> cases e
    omega
  · have := hw (by rw [hl]; simp)
    rw [this]
    simp only [stride, hl]
    rcases layout_cases t.ty h.lay with ⟨e, g⟩ | ⟨e, g⟩ | ⟨e, g, g'⟩ | ⟨e, g, g'⟩ | ⟨e, g, g'⟩ <;> rw [hl] at e <;> cases e
    omega

theorem valid_mesh : Valid coordT ∧ Valid adjT ∧ Valid adj2T ∧ Valid infoT ∧ Valid pbiT := by
  refine ⟨⟨?_, ?_, ?_, ?_, ?_⟩, ⟨?_, ?_, ?_, ?_, ?_⟩, ⟨?_, ?_, ?_, ?_, ?_⟩, ⟨?_, ?_, ?_, ?_, ?_⟩, ⟨?_, ?_, ?_, ?_, ?_⟩⟩ <;> decide

theorem plain_mesh : Plain coordT ∧ Plain adjT ∧ Plain adj2T ∧ Plain infoT ∧ Plain pbiT := by
  refine ⟨?_, ?_, ?_, ?_, ?_⟩ <;> (unfold Plain; decide)

theorem dist_roundtrip (z : α) {t : STy} (h : Valid t) (p : Plain t) {n : Nat} {x : Dist α} {v : List (Val α) × List (Val α) × List Map}
    (hr : Ready z t n x v) : ∃ xs' files, writeDist z t x = .ok (xs', files) ∧ ∃ ys, readDist t n files = .ok ys ∧ Kept (Shows t) ys v.1 v.2.1 v.2.2 := by
  obtain ⟨hn, hk, hp⟩ := hr
  have hc : ∀ w ∈ v.1 ++ v.2.1, Compatible t t w.width := by
    intro w hw
    rcases List.mem_append.1 hw with hw | hw
    · obtain ⟨r, hr⟩ := List.mem_iff_getElem?.1 hw
      obtain ⟨x', hx⟩ := some_of (hk.ranks.1.trans hk.ranks.2.1.symm) (lt_of rfl hr)
      exact compatible_self z h (hk.father r x' w hx hr)
    · obtain ⟨r, hr⟩ := List.mem_iff_getElem?.1 hw
      obtain ⟨x', hx⟩ := some_of (hk.ranks.1.trans hk.ranks.2.2.symm) (lt_of rfl hr)
      exact compatible_self z h (hk.son r x' w hx hr)
  obtain ⟨xs', files, h1, -, h2⟩ := pair_roundtrip_partial z h h p p hk hp hc
  obtain ⟨ys, h3, h4⟩ := h2 (List.replicate n (Arr.Array.empty, Arr.Array.empty)) (by simp [hn])
  exact ⟨xs', files, h1, ys, h3, h4⟩

theorem toVec_ofFn {K : Type} (n : Nat) (f : Fin n → K) : toVec n (List.ofFn f) = .ok f := by
  unfold toVec
  rw [dif_pos (by simp)]
  simp

/-- **C98**, periodic sides: all rotations, centers and translations are read back, and nothing else changes. -/
theorem periodicity_roundtrip {K : Type} (p q : Per K) : ∃ q', Per.read q 1 p.write = .ok q' ∧
    (∀ i, 1 ≤ i → i ≤ 3 → q'.rot i = p.rot i ∧ q'.center i = p.center i ∧ q'.trans i = p.trans i) ∧
    (∀ i, i < 1 ∨ 3 < i → q'.rot i = q.rot i ∧ q'.center i = q.center i ∧ q'.trans i = q.trans i) := by
  refine ⟨⟨Function.update (Function.update (Function.update q.rot 1 (p.rot 1)) 2 (p.rot 2)) 3 (p.rot 3),
    Function.update (Function.update (Function.update q.center 1 (p.center 1)) 2 (p.center 2)) 3 (p.center 3),
    Function.update (Function.update (Function.update q.trans 1 (p.trans 1)) 2 (p.trans 2)) 3 (p.trans 3)⟩, ?_, ?_, ?_⟩
  · unfold Per.write
    simp only [List.range'_succ, List.range'_zero, List.map_cons, List.map_nil, Per.read, toVec_ofFn, Res.ok_bind]
  · intro i h1 h3
    interval_cases i <;> simp [Function.update]
  · intro i hi
    have h1 : i ≠ 1 := by omega
    have h2 : i ≠ 2 := by omega
    have h3 : i ≠ 3 := by omega
    simp [Function.update, h1, h2, h3]

theorem heads (dim : Int) (n : Nat) (per : Bool) :
    forRanks (fun r (_ : Unit) => checkHead dim n ((List.range n).map fun r => ("UnstructuredMesh", dim, r, n, if per = true then (1 : Int) else 0)) r) 0
      (List.replicate n ()) = .ok (List.replicate n per) := by
  rw [forRanks_ok]
  refine ⟨by simp, fun i x hx => ⟨per, ?_, ?_⟩⟩
  · have : i < n := by simpa using lt_of rfl hx
    simp [this]
  · have : i < n := by simpa using lt_of rfl hx
    simp only [Nat.zero_add, checkHead, List.getElem?_map, List.getElem?_range this, Option.map_some]
    cases per <;> simp [Res.assert]

/-- **C98**, meshes: what `n` ranks wrote, `n` ranks read: the coordinates, all adjacencies, elements, ghosts, mappings, and where the periodic sides
lie. -/
theorem mesh_roundtrip {K E : Type} [Zero K] (zE : E) {n : Nat} (hn : 0 < n) {m : Mesh K E} {v : MeshVal K E} (h : m.Ready zE n v) :
    ∃ fs, writeMesh zE n m = .ok fs ∧ ∀ per : List (Per K), per.length = n → ∃ m', readMesh v.dim n per fs = .ok m' ∧ m'.Shows v := by
  obtain ⟨v1, v2, v3, v4, v5⟩ := valid_mesh
  obtain ⟨p1, p2, p3, p4, p5⟩ := plain_mesh
  obtain ⟨a, af, a1, a', a2, a3⟩ := dist_roundtrip 0 v1 p1 h.coords
  obtain ⟨b, bf, b1, b', b2, b3⟩ := dist_roundtrip 0 v2 p2 h.cell2node
  obtain ⟨c, cf, c1, c', c2, c3⟩ := dist_roundtrip 0 v2 p2 h.cell2cell
  obtain ⟨d, df, d1, d', d2, d3⟩ := dist_roundtrip zE v4 p4 h.cellInfo
  obtain ⟨e, ef, e1, e', e2, e3⟩ := dist_roundtrip 0 v2 p2 h.bnd2node
  obtain ⟨f, ff, f1, f', f2, f3⟩ := dist_roundtrip 0 v3 p3 h.bnd2cell
  obtain ⟨g, gf, g1, g', g2, g3⟩ := dist_roundtrip zE v4 p4 h.bndInfo
  have hps : ∀ q ∈ List.replicate n v.periodic, q = v.periodic := fun q hq => (List.mem_replicate.1 hq).2
  have hix : idx (List.replicate n v.periodic) 0 = .ok v.periodic := by
    rw [idx_ok_iff]
    simp [hn]
  by_cases hper : v.periodic = true
  · obtain ⟨k, kf, k1, k', k2, k3⟩ := dist_roundtrip 0 v5 p5 (h.pbi hper)
    obtain ⟨hv, hl⟩ := h.per hper
    refine ⟨⟨(List.range n).map fun r => ("UnstructuredMesh", m.dim, r, n, if m.periodic = true then (1 : Int) else 0), af, bf, cf, df, ef, ff, gf, kf,
      m.per.map Per.write⟩, ?_, fun per hpl => ?_⟩
    · unfold writeMesh
      rw [Res.assert_true _ h.state, Res.ok_bind, a1, Res.ok_bind, b1, Res.ok_bind, c1, Res.ok_bind, d1, Res.ok_bind, e1, Res.ok_bind, f1, Res.ok_bind,
        g1, Res.ok_bind, if_pos (h.periodic.trans hper), k1, Res.ok_bind]
    · have hpp : ∀ (r : Nat) (q : Per K), per[r]? = some q → ∃ (p q' : Per K), v.per[r]? = some p ∧
          (do let l ← idx (m.per.map Per.write) r; Per.read q 1 l) = .ok q' ∧
          ∀ i, 1 ≤ i → i ≤ 3 → q'.rot i = p.rot i ∧ q'.center i = p.center i ∧ q'.trans i = p.trans i := by
        intro r q hq
        obtain ⟨p, hp⟩ := some_of (hl.trans hpl.symm) (lt_of rfl hq)
        obtain ⟨q', h1, h2, -⟩ := periodicity_roundtrip p q
        refine ⟨p, q', hv ▸ hp, ?_, h2⟩
        rw [(idx_ok_iff _ _ _).2 (show (m.per.map Per.write)[r]? = some p.write by rw [List.getElem?_map, hp]; rfl), Res.ok_bind, h1]
      obtain ⟨qs, hqs⟩ := forRanks_total (fun r q => do let l ← idx (m.per.map Per.write) r; Per.read q 1 l) per 0 fun i q hq => by
        obtain ⟨p, q', -, h, -⟩ := hpp i q hq
        exact ⟨q', by rw [Nat.zero_add]; exact h⟩
      obtain ⟨lq, hq⟩ := (forRanks_ok _ _ _ _).1 hqs
      refine ⟨⟨v.dim, true, true, a', b', c', d', e', f', g', k', qs⟩, ?_, ?_⟩
      · unfold readMesh
        simp only
        rw [h.periodic, h.dim, heads, Res.ok_bind, hix, Res.ok_bind, if_neg (not_not.2 hps), a2, Res.ok_bind, b2, Res.ok_bind, c2, Res.ok_bind, d2,
          Res.ok_bind, e2, Res.ok_bind, f2, Res.ok_bind, g2, Res.ok_bind, if_pos hper, k2, Res.ok_bind, hqs, Res.ok_bind]
      · refine ⟨rfl, rfl, hper.symm, a3, b3, c3, d3, e3, f3, g3, fun _ => k3, fun _ => ⟨by rw [lq, hpl, ← hv, hl], fun r q' p hq' hp => ?_⟩⟩
        obtain ⟨q, hqq⟩ := some_of (rfl : per.length = per.length) (lt_of lq hq')
        obtain ⟨q'', h1, h2⟩ := hq r q hqq
        simp only at hq'
        rw [hq'] at h1
        cases h1
        obtain ⟨p', q'', h3, h4, h5⟩ := hpp r q hqq
        rw [Nat.zero_add, h4] at h2
        cases h2
        rw [hp] at h3
        cases h3
        exact h5
  · refine ⟨⟨(List.range n).map fun r => ("UnstructuredMesh", m.dim, r, n, if m.periodic = true then (1 : Int) else 0), af, bf, cf, df, ef, ff, gf, [], []⟩,
      ?_, fun per hpl => ?_⟩
    · unfold writeMesh
      rw [Res.assert_true _ h.state, Res.ok_bind, a1, Res.ok_bind, b1, Res.ok_bind, c1, Res.ok_bind, d1, Res.ok_bind, e1, Res.ok_bind, f1, Res.ok_bind,
        g1, Res.ok_bind, if_neg (h.periodic ▸ hper)]
    · refine ⟨⟨v.dim, true, false, a', b', c', d', e', f', g', [], per⟩, ?_, ?_⟩
      · unfold readMesh
        simp only
        rw [h.periodic, h.dim, heads, Res.ok_bind, hix, Res.ok_bind, if_neg (not_not.2 hps), a2, Res.ok_bind, b2, Res.ok_bind, c2, Res.ok_bind, d2,
          Res.ok_bind, e2, Res.ok_bind, f2, Res.ok_bind, g2, Res.ok_bind, if_neg hper]
      · exact ⟨rfl, rfl, (Bool.not_eq_true _ ▸ hper).symm, a3, b3, c3, d3, e3, f3, g3, fun h => absurd h hper, fun h => absurd h hper⟩

/-- a mesh file of another dimension, or of another number of ranks, is refused -/
theorem mesh_mismatch_aborts {K E : Type} [Zero K] (zE : E) {n : Nat} {m : Mesh K E} {fs : MeshFiles K E} (h : writeMesh zE n m = .ok fs)
    (dim : Int) (n' : Nat) (hn : 0 < n') (hne : dim ≠ m.dim ∨ n' ≠ n) (per : List (Per K)) : readMesh dim n' per fs = .abort := by
  have hh : fs.head = (List.range n).map fun r => ("UnstructuredMesh", m.dim, r, n, if m.periodic = true then (1 : Int) else 0) := by
    unfold writeMesh at h
    obtain ⟨_, _, h⟩ := (Res.bind_ok_iff _ _ _).1 h
    obtain ⟨_, _, h⟩ := (Res.bind_ok_iff _ _ _).1 h
    obtain ⟨_, _, h⟩ := (Res.bind_ok_iff _ _ _).1 h
    obtain ⟨_, _, h⟩ := (Res.bind_ok_iff _ _ _).1 h
    obtain ⟨_, _, h⟩ := (Res.bind_ok_iff _ _ _).1 h
    obtain ⟨_, _, h⟩ := (Res.bind_ok_iff _ _ _).1 h
    obtain ⟨_, _, h⟩ := (Res.bind_ok_iff _ _ _).1 h
    obtain ⟨_, _, h⟩ := (Res.bind_ok_iff _ _ _).1 h
    split at h
    · next hp =>
      obtain ⟨_, _, h⟩ := (Res.bind_ok_iff _ _ _).1 h
      cases h
      simp only [hp, if_true]
    · next hp =>
      cases h
      simp only [hp, Bool.false_eq_true, if_false]
  have h0 : checkHead dim n' fs.head 0 = .abort := by
    rw [hh]
    cases n with
    | zero => rfl
    | succ k =>
      unfold checkHead
      rw [List.getElem?_map, List.getElem?_range (by omega)]
      simp only [Option.map_some]
      rw [Res.assert_true _ trivial, Res.ok_bind]
      by_cases hd : m.dim = dim
      · rw [Res.assert_true _ hd, Res.ok_bind]
        simp only [Res.assert, if_neg (show ¬ (True ∧ k + 1 = n') from fun h => by rcases hne with h' | h'; exact h' hd.symm; exact h' h.2.symm),
          Res.abort_bind]
      · simp only [Res.assert, if_neg hd, Res.abort_bind]
  obtain ⟨k, rfl⟩ : ∃ k, n' = k + 1 := ⟨n' - 1, by omega⟩
  unfold readMesh
  simp only [List.replicate_succ, forRanks]
  rw [h0]
  rfl

/-! ## matrices -/

theorem split_mat (M : MTy) : splitSStringClean (matSignature M) '_' =
    ["ArrayEigenMatrix".toList, toStr M.ni, toStr M.nj, toStr M.niMax, toStr M.njMax] := by
  have : matSignature M = joinWith '_' ["ArrayEigenMatrix".toList, [], toStr M.ni, toStr M.nj, toStr M.niMax, toStr M.njMax] := by
    unfold matSignature
    generalize "ArrayEigenMatrix".toList = X
    simp only [joinWith, List.append_assoc, List.cons_append, List.nil_append]
  rw [this, splitSStringClean_spec]
  · have : "ArrayEigenMatrix".toList ≠ [] := by decide
    simp [(toStr_no_bar _).2]
  · simp
  · intro p hp
    simp only [List.mem_cons, List.not_mem_nil, or_false] at hp
    rcases hp with rfl | rfl | rfl | rfl | rfl | rfl <;> first | exact (toStr_no_bar _).1 | decide | simp

theorem parse_mat (M : MTy) (h : MValid M) : parseSignature (matSignature M) = .ok (M.ni, M.nj, M.niMax, M.njMax) := by
  have h1 := stoi_toStr M.ni h.ni
  have h2 := stoi_toStr M.nj h.nj
  have h3 := stoi_toStr M.niMax h.niMax
  have h4 := stoi_toStr M.njMax h.njMax
  unfold parseSignature
  rw [split_mat M]
  simp_all [Res.assert]

/-- **C98**, arrays of matrices: coefficients and numbers of rows are read back.  (Partial: if the writer's matrices have each their own number of rows,
those of the reader have to.) -/
theorem matrix_roundtrip_partial (z : α) {W R : STy} (hW : Valid W) (hR : Valid R) (pW : Plain W) (pR : Plain R) {M N : MTy} (hM : MValid M) (a : MArr α)
    {v : Val α × List Int} (ha : Writable z W a.base v.1) (hv : MShows W M a v) (hn : M.ni = NonUniformSize → a.nRows ≠ none)
    (hc : Compatible W R v.1.width) (hm : MCompatible M N v.2) :
    ∃ a' d, writeMat z W M a = .ok (a', d) ∧ MShows W M a' v ∧ ∀ b, ∃ b', readMat R N b d = .ok b' ∧ MShows R N b' v := by
  obtain ⟨c, d, w1, w2, w3⟩ := good_array z hW hR pW pR ha hc
  obtain ⟨hb, hl, hr⟩ := hv
  have hcomp : matCompatible N (M.ni, M.nj, M.niMax, M.njMax) = true := by
    unfold matCompatible
    have h1 := hm.ni
    have h2 := hm.nj
    have h3 := hm.niMax
    have h4 := hm.njMax
    simp only
    rw [if_neg (fun h => h.2.2 (h1 h.1 h.2.1)), if_neg (fun h => h.2.2 (h2 h.1 h.2.1)), if_neg (fun h => h.2.2 (h3 h.1 h.2.1)),
      if_neg (fun h => h.2.2 (h4 h.1 h.2.1))]
  have hkn : ∀ (i : Nat) (k : Int) (B : Arr.Array α) (dyn : Int) (l : Option (List Int)), 0 ≤ N.ni → v.2[i]? = some k → matRows N ⟨B, dyn, l⟩ i = .ok k := by
    intro i k B dyn l h0 hk
    unfold matRows
    rw [if_pos h0, hm.fixed h0 k (List.mem_of_getElem? hk)]
  by_cases hu : M.ni = NonUniformSize
  · cases hrows : a.nRows with
    | none => exact absurd hrows (hn hu)
    | some l =>
      have hN := hm.uniform hu
      have hread : ∀ (B : Arr.Array α) (dyn : Int) (i : Nat), matRows N ⟨B, dyn, some l⟩ i = matRows M a i := by
        intro B dyn i
        unfold matRows
        rw [if_neg (by rw [hN]; decide), if_pos hN, if_neg (by rw [hu]; decide), if_pos hu, hrows]
      refine ⟨⟨c, a.nRowDyn, some l⟩, ⟨d, matSignature M, a.nRowDyn, some l⟩, ?_, ⟨w2, hl, ?_⟩, fun b => ?_⟩
      · unfold writeMat
        rw [w1, Res.ok_bind, if_pos hu, hrows]
      · intro i k hk
        rw [← hr i k hk]
        unfold matRows
        rw [hrows]
      · obtain ⟨b', r1, r2⟩ := w3 b.base
        refine ⟨⟨b', if N.ni = DynamicSize ∧ M.ni ≥ 0 then M.ni else a.nRowDyn, some l⟩, ?_, r2, hl, ?_⟩
        · unfold readMat
          rw [r1, Res.ok_bind]
          simp only
          rw [parse_mat M hM, Res.ok_bind, Res.assert_true _ (Or.inr hcomp), Res.ok_bind]
          simp only
          rw [if_pos hu, if_pos hN]
        · intro i k hk
          rw [hread, hr i k hk]
  · refine ⟨⟨c, a.nRowDyn, a.nRows⟩, ⟨d, matSignature M, a.nRowDyn, none⟩, ?_, ⟨w2, hl, ?_⟩, fun b => ?_⟩
    · unfold writeMat
      rw [w1, Res.ok_bind, if_neg hu]
    · intro i k hk
      rw [← hr i k hk]
      rfl
    · obtain ⟨b', r1, r2⟩ := w3 b.base
      have hMk : ∀ (i : Nat) (k : Int), v.2[i]? = some k → k = if M.ni ≥ 0 then M.ni else a.nRowDyn := by
        intro i k hk
        have := hr i k hk
        unfold matRows at this
        by_cases h0 : M.ni ≥ 0
        · rw [if_pos h0] at this ⊢
          exact (Res.ok.inj this).symm
        · have hd : M.ni = DynamicSize := by
            rcases hm.kindsW with h | h | h
            · exact absurd h h0
            · exact h
            · exact absurd h hu
          rw [if_neg h0, if_neg hu, if_pos hd] at this
          rw [if_neg h0]
          exact (Res.ok.inj this).symm
      by_cases hN : N.ni = NonUniformSize
      · have hNd : ¬ (N.ni = DynamicSize ∧ M.ni ≥ 0) := by
          rw [hN]
          rintro ⟨h, -⟩
          revert h
          decide
        refine ⟨⟨b', a.nRowDyn, some (List.replicate b'.size (if M.ni ≥ 0 then M.ni else a.nRowDyn))⟩, ?_, r2, hl, ?_⟩
        · unfold readMat
          rw [r1, Res.ok_bind]
          simp only
          rw [parse_mat M hM, Res.ok_bind, Res.assert_true _ (Or.inr hcomp), Res.ok_bind]
          simp only
          rw [if_neg hu, if_pos hN, if_neg hNd]
        · intro i k hk
          have hi : i < b'.size := by
            rw [r2.size, ← hl]
            exact lt_of rfl hk
          unfold matRows
          rw [if_neg (by rw [hN]; decide), if_pos hN]
          simp only [List.getElem?_replicate, if_pos hi]
          rw [← hMk i k hk]
      · refine ⟨⟨b', if N.ni = DynamicSize ∧ M.ni ≥ 0 then M.ni else a.nRowDyn, b.nRows⟩, ?_, r2, hl, ?_⟩
        · unfold readMat
          rw [r1, Res.ok_bind]
          simp only
          rw [parse_mat M hM, Res.ok_bind, Res.assert_true _ (Or.inr hcomp), Res.ok_bind]
          simp only
          rw [if_neg hu, if_neg hN]
        · intro i k hk
          by_cases h0 : 0 ≤ N.ni
          · exact hkn i k _ _ _ h0 hk
          · have hd : N.ni = DynamicSize := by
              rcases hm.kindsR with h | h | h
              · exact absurd h h0
              · exact h
              · exact absurd h hN
            unfold matRows
            rw [if_neg h0, if_neg hN, if_pos hd, hMk i k hk]
            by_cases h1 : M.ni ≥ 0
            · rw [if_pos ⟨hd, h1⟩, if_pos h1]
            · rw [if_neg (fun h => h1 h.2), if_neg h1]

/-- Matrices that may each have their own number of rows cannot be read as matrices with one number of rows, although all of them have this number: the
first entry is only looked at if there is none. -/
theorem nonuniform_matrix_unreadable (z : α) {W R : STy} (hW : Valid W) (hR : Valid R) (pW : Plain W) (pR : Plain R) {M N : MTy} (hM : MValid M)
    (a : MArr α) {v : Val α} (ha : Writable z W a.base v) (hc : Compatible W R v.width) (hu : M.ni = NonUniformSize) (hN : N.ni ≠ NonUniformSize)
    {k : Int} (hk : k ≠ 0) {n : Nat} (hrows : a.nRows = some (List.replicate n k)) :
    ∃ a' d, writeMat z W M a = .ok (a', d) ∧ ∀ b, readMat R N b d = .abort := by
  obtain ⟨c, d, w1, w2, w3⟩ := good_array z hW hR pW pR ha hc
  refine ⟨⟨c, a.nRowDyn, a.nRows⟩, ⟨d, matSignature M, a.nRowDyn, some (List.replicate n k)⟩, ?_, fun b => ?_⟩
  · unfold writeMat
    rw [w1, Res.ok_bind, if_pos hu, hrows]
  · obtain ⟨b', r1, r2⟩ := w3 b.base
    unfold readMat
    rw [r1, Res.ok_bind]
    simp only
    rw [parse_mat M hM, Res.ok_bind]
    by_cases hcm : matSignature M = matSignature N ∨ matCompatible N (M.ni, M.nj, M.niMax, M.njMax) = true
    · rw [Res.assert_true _ hcm, Res.ok_bind]
      simp only
      rw [if_pos hu, if_neg hN]
      cases n with
      | zero => rfl
      | succ n =>
        rw [if_pos (by simp), Res.ok_bind]
        simp only [Res.assert]
        rw [if_neg (fun h => hk (h k (by simp)))]
        rfl
    · simp only [Res.assert, if_neg hcm, Res.abort_bind]

/-- A number of rows that the writer chose when running is not compared with that fixed by the reader's type: the reader shows its own. -/
theorem matrix_rows_unchecked (z : α) {W R : STy} (hW : Valid W) (hR : Valid R) (pW : Plain W) (pR : Plain R) (a : MArr α) {v : Val α}
    (ha : Writable z W a.base v) (hc : Compatible W R v.width) (k : Nat) (i : Nat) :
    matRows ⟨-1, -1, -1, -1⟩ a i = .ok a.nRowDyn ∧
      ∃ a' d, writeMat z W ⟨-1, -1, -1, -1⟩ a = .ok (a', d) ∧ ∀ b, ∃ b', readMat R ⟨k, -1, k, -1⟩ b d = .ok b' ∧ matRows ⟨k, -1, k, -1⟩ b' i = .ok k := by
  obtain ⟨c, d, w1, w2, w3⟩ := good_array z hW hR pW pR ha hc
  refine ⟨rfl, ⟨c, a.nRowDyn, a.nRows⟩, ⟨d, matSignature ⟨-1, -1, -1, -1⟩, a.nRowDyn, none⟩, ?_, fun b => ?_⟩
  · unfold writeMat
    rw [w1, Res.ok_bind, if_neg (by decide)]
  · obtain ⟨b', r1, r2⟩ := w3 b.base
    refine ⟨⟨b', a.nRowDyn, b.nRows⟩, ?_, ?_⟩
    · unfold readMat
      rw [r1, Res.ok_bind]
      simp only
      rw [parse_mat _ ⟨by decide, by decide, by decide, by decide⟩, Res.ok_bind,
        Res.assert_true _ (Or.inr (show matCompatible ⟨k, -1, k, -1⟩ (-1, -1, -1, -1) = true by simp [matCompatible])), Res.ok_bind]
      simp only
      rw [if_neg (by decide), if_neg (by unfold NonUniformSize; omega), if_neg (by simp)]
    · unfold matRows
      rw [if_pos (by simp)]

/-! ## restarts -/

theorem hasSuffix_append (a t s : List Char) (h : s.length ≤ t.length) : sstringHasSuffix (a ++ t) s = sstringHasSuffix t s := by
  unfold sstringHasSuffix
  rw [if_neg (by simp; omega), if_neg (by omega)]
  congr 2
  rw [show (a ++ t).length - s.length = a.length + (t.length - s.length) by simp; omega, List.drop_append, List.drop_eq_nil_of_le (by omega)]
  simp

/-- **C98**, restarts: the name that is kept of a restart leads every rank to the file it has written, with the serializer that has written it. -/
theorem restart_found (json : Bool) (fname : List Char) (n r : Nat) :
    readName (printName json fname n r).1 r = .ok (json, (printName json fname n r).2) := by
  cases json with
  | true =>
    simp only [printName, if_true, readName]
    rw [hasSuffix_append _ _ _ (by decide), show sstringHasSuffix "_restart.dir".toList ".dir".toList = true by decide, if_pos rfl]
  | false =>
    simp only [printName, Bool.false_eq_true, if_false, readName]
    rw [hasSuffix_append _ _ _ (by decide), show sstringHasSuffix ".restart.dnds.h5".toList ".dir".toList = false by decide,
      if_neg (by decide), hasSuffix_append _ _ _ (by decide), show sstringHasSuffix ".restart.dnds.h5".toList ".dnds.h5".toList = true by decide,
      if_pos rfl]

theorem readDigits_zeros (k : Nat) (l : List Char) : readDigits 0 (List.replicate k '0' ++ l) = readDigits 0 l := by
  induction k with
  | zero => rfl
  | succ k ih => rw [List.replicate_succ, List.cons_append, readDigits, show digitVal '0' = some 0 by decide]; exact ih

theorem fourDigits_inj {r s : Nat} (h : fourDigits r = fourDigits s) : r = s := by
  have := congrArg (readDigits 0) h
  unfold fourDigits at this
  rwa [readDigits_zeros, readDigits_zeros, readDigits_digits, readDigits_digits] at this

/-- no two ranks write the same file of text, and the one file that is not text is that of all ranks -/
theorem restart_files (fname : List Char) (n r s : Nat) :
    ((printName true fname n r).2 = (printName true fname n s).2 ↔ r = s) ∧ (printName false fname n r).2 = (printName false fname n s).2 ∧
      (printName true fname n r).1 = (printName true fname n s).1 := by
  refine ⟨⟨fun h => ?_, fun h => by rw [h]⟩, rfl, rfl⟩
  simp only [printName, if_true] at h
  exact fourDigits_inj (List.append_cancel_left (List.append_cancel_right h))

/-- restarts of different numbers of ranks do not overwrite each other -/
theorem restart_ranks (json : Bool) (fname : List Char) (n n' r : Nat) (h : (printName json fname n r).1 = (printName json fname n' r).1) : n = n' := by
  have : digits n = digits n' := by
    cases json with
    | true =>
      simp only [printName, if_true] at h
      exact List.append_cancel_left (List.append_cancel_right h)
    | false =>
      simp only [printName, Bool.false_eq_true, if_false] at h
      exact List.append_cancel_left (List.append_cancel_right h)
  have := congrArg (readDigits 0) this
  rwa [readDigits_digits, readDigits_digits] at this

theorem storeDims_spec (buf : List α) : ∀ (dims : List Nat) (row : List α), (∀ j ∈ dims, j < buf.length ∧ j < row.length) →
    ∃ row', storeDims buf dims row = .ok row' ∧ row'.length = row.length ∧ ∀ j < row.length, row'[j]? = if j ∈ dims then buf[j]? else row[j]?
  | [], row, _ => ⟨row, rfl, rfl, fun j _ => by simp⟩
  | k :: ks, row, h => by
    obtain ⟨h1, h2⟩ := h k (by simp)
    obtain ⟨row', e1, e2, e3⟩ := storeDims_spec buf ks (row.set k buf[k]) fun j hj => by
      have := h j (by simp [hj])
      simpa using this
    refine ⟨row', ?_, by simpa using e2, fun j hj => ?_⟩
    · unfold storeDims
      rw [(idx_ok_iff _ _ _).2 (List.getElem?_eq_getElem h1), Res.ok_bind, (idx_ok_iff _ _ _).2 (List.getElem?_eq_getElem h2), Res.ok_bind, e1]
    · rw [e3 j (by simpa using hj)]
      by_cases hk : j ∈ ks
      · simp [hk]
      · by_cases hjk : j = k
        · subst hjk
          simp [hk, hj, h1]
        · simp [hk, hjk, List.getElem?_set, Ne.symm hjk]

/-- **C98**, restarts of another solver: with the same cells on the rank, the components that are listed are taken over in all cells and ghosts, and all
others stay as they are. -/
theorem other_restart (dims : List Nat) (w wr : Nat) (u buf : List (List α) × List (List α)) (hu : ∀ row ∈ u.1 ++ u.2, row.length = w)
    (hb : ∀ row ∈ buf.1 ++ buf.2, row.length = wr) (h1 : buf.1.length = u.1.length) (h2 : buf.2.length = u.2.length)
    (hd : ∀ j ∈ dims, j < w ∧ j < wr) :
    ∃ u', otherRestart dims w wr u buf = .ok u' ∧ u'.1.length = u.1.length ∧ u'.2.length = u.2.length ∧
      (∀ (i : Nat) (row b : List α), u.1[i]? = some row → buf.1[i]? = some b → ∃ row' : List α, u'.1[i]? = some row' ∧ row'.length = w ∧
        ∀ j < w, row'[j]? = if j ∈ dims then b[j]? else row[j]?) ∧
      (∀ (i : Nat) (row b : List α), u.2[i]? = some row → buf.2[i]? = some b → ∃ row' : List α, u'.2[i]? = some row' ∧ row'.length = w ∧
        ∀ j < w, row'[j]? = if j ∈ dims then b[j]? else row[j]?) := by
  have key : ∀ x y : List (List α), (∀ row ∈ x, row.length = w) → (∀ row ∈ y, row.length = wr) → y.length = x.length →
      ∃ x', forRanks (fun i row => do let b ← idx y i; storeDims b dims row) 0 x = .ok x' ∧ x'.length = x.length ∧
        ∀ (i : Nat) (row b : List α), x[i]? = some row → y[i]? = some b → ∃ row' : List α, x'[i]? = some row' ∧ row'.length = w ∧
          ∀ j < w, row'[j]? = if j ∈ dims then b[j]? else row[j]? := by
    intro x y hx hy hl
    have hrow : ∀ (i : Nat) (row : List α), x[i]? = some row → ∃ b row' : List α, y[i]? = some b ∧ (do let b ← idx y i; storeDims b dims row) = .ok row' ∧
        row'.length = w ∧ ∀ j < w, row'[j]? = if j ∈ dims then b[j]? else row[j]? := by
      intro i row hi
      obtain ⟨b, hb⟩ := some_of hl (lt_of rfl hi)
      have e1 := hx row (List.mem_of_getElem? hi)
      have e2 := hy b (List.mem_of_getElem? hb)
      obtain ⟨row', f1, f2, f3⟩ := storeDims_spec b dims row fun j hj => by rw [e1, e2]; exact ⟨(hd j hj).2, (hd j hj).1⟩
      refine ⟨b, row', hb, ?_, f2.trans e1, fun j hj => f3 j (by omega)⟩
      rw [(idx_ok_iff _ _ _).2 hb, Res.ok_bind, f1]
    obtain ⟨x', hx'⟩ := forRanks_total (fun i row => do let b ← idx y i; storeDims b dims row) x 0 fun i row hi => by
      obtain ⟨b, row', -, h, -⟩ := hrow i row hi
      exact ⟨row', by rw [Nat.zero_add]; exact h⟩
    obtain ⟨lx, hx2⟩ := (forRanks_ok _ _ _ _).1 hx'
    refine ⟨x', hx', lx, fun i row b hi hb => ?_⟩
    obtain ⟨row', g1, g2⟩ := hx2 i row hi
    obtain ⟨b', row'', f1, f2, f3, f4⟩ := hrow i row hi
    rw [Nat.zero_add, f2] at g2
    cases g2
    rw [hb] at f1
    cases f1
    exact ⟨row', g1, f3, f4⟩
  obtain ⟨f, f1, f2, f3⟩ := key u.1 buf.1 (fun r h => hu r (List.mem_append_left _ h)) (fun r h => hb r (List.mem_append_left _ h)) h1
  obtain ⟨s, s1, s2, s3⟩ := key u.2 buf.2 (fun r h => hu r (List.mem_append_right _ h)) (fun r h => hb r (List.mem_append_right _ h)) h2
  refine ⟨(f, s), ?_, f2, s2, f3, s3⟩
  unfold otherRestart
  rw [Res.assert_true _ h1, Res.ok_bind, Res.assert_true _ h2, Res.ok_bind,
    Res.assert_true _ (show ∀ j ∈ dims, (j : Int) ≤ (min w wr : Nat) - 1 from fun j hj => by have := hd j hj; omega), Res.ok_bind, f1, Res.ok_bind, s1,
    Res.ok_bind]

/-- other numbers of cells or components that do not exist are refused -/
theorem other_restart_aborts (dims : List Nat) (w wr : Nat) (u buf : List (List α) × List (List α))
    (h : buf.1.length ≠ u.1.length ∨ buf.2.length ≠ u.2.length ∨ ∃ j ∈ dims, w ≤ j ∨ wr ≤ j) : otherRestart dims w wr u buf = .abort := by
  unfold otherRestart
  by_cases h1 : buf.1.length = u.1.length
  · rw [Res.assert_true _ h1, Res.ok_bind]
    by_cases h2 : buf.2.length = u.2.length
    · rw [Res.assert_true _ h2, Res.ok_bind]
      obtain ⟨j, hj, hw⟩ := (h.resolve_left (not_not.2 h1)).resolve_left (not_not.2 h2)
      simp only [Res.assert]
      rw [if_neg (fun h => by have := h j hj; omega)]
      rfl
    · simp only [Res.assert, if_neg h2, Res.abort_bind]
  · simp only [Res.assert, if_neg h1, Res.abort_bind]

/-! ### instances -/

/-- mappings of two ranks with two rows each, of which each needs one of the other -/
theorem demo_pulled : ∃ m0 m1, Pulled [2, 2] [m0, m1] := by
  obtain ⟨g, hg⟩ := built_exists [2, 2]
  obtain ⟨maps, h⟩ := ghost_map_exists hg [[2], [1]] rfl (by simp) (by decide)
  have hl := (createPull_spec hg _ rfl maps h).1
  obtain ⟨m0, m1, rfl⟩ : ∃ m0 m1, maps = [m0, m1] := by
    match maps, hl with
    | [m0, m1], _ => exact ⟨m0, m1, rfl⟩
  exact ⟨m0, m1, g, _, hg, rfl, h⟩

theorem ready_of (z : α) {t : STy} (ht : Valid t) {a b : Arr.Array α} (ha : Reachable z t.ty a) (hb : Reachable z t.ty b) (h2 : a.size = 2)
    (hw : kind t = .fixed → stride t.ty a ≠ 0 ∧ stride t.ty b ≠ 0) (hm : kind t ≠ .max) {m0 m1 : Map} (hp : Pulled [2, 2] [m0, m1]) :
    ∃ v, Ready z t 2 [((a, b), some m0), ((a, b), some m1)] v := by
  have Ia := reachable_inv z ht.lay ha
  have Ib := reachable_inv z ht.lay hb
  have hc : kind t = .fixed → t.ty.layout ≠ .csr := by
    unfold kind
    cases t.ty.layout <;> simp
  have wa : Writable z t a (valOf t.ty a) := ⟨ha, represents_valOf Ia,
    fun h => by rw [represents_width Ia (represents_valOf Ia) (hc h)]; exact (hw h).1, fun h => absurd h hm⟩
  have wb : Writable z t b (valOf t.ty b) := ⟨hb, represents_valOf Ib,
    fun h => by rw [represents_width Ib (represents_valOf Ib) (hc h)]; exact (hw h).2, fun h => absurd h hm⟩
  refine ⟨([valOf t.ty a, valOf t.ty a], [valOf t.ty b, valOf t.ty b], [m0, m1]), rfl, ⟨⟨rfl, rfl, rfl⟩, ?_, ?_, rfl⟩, ?_⟩
  · intro r x v hx hv
    match r with
    | 0 => cases hx; cases hv; exact wa
    | 1 => cases hx; cases hv; exact wa
    | r + 2 => cases hx
  · intro r x v hx hv
    match r with
    | 0 => cases hx; cases hv; exact wb
    | 1 => cases hx; cases hv; exact wb
    | r + 2 => cases hx
  · have : (valOf t.ty a).rows.length = 2 := by rw [← (represents_valOf Ia).size, h2]
    simp only [List.map_cons, List.map_nil, this]
    exact hp

/-- a mesh on two ranks, with a ghost in every array: all the rest is in order for it to be written -/
theorem demo_mesh : ∃ (m : Mesh Rat Nat) (v : MeshVal Rat Nat), m.Ready 0 2 v ∧ v.periodic = true ∧ m.cell2node.length = 2 := by
  obtain ⟨m0, m1, hp⟩ := demo_pulled
  have fixed : ∀ {β : Type} (z : β) (t : STy), t.ty.layout = .staticFixed → t.ty.rs ≠ 0 → Valid t →
      ∃ (x : Dist β) (v : _), Ready z t 2 x v ∧ x.length = 2 := by
    intro β z t hl hs ht
    have hr : ∀ n : Nat, Reachable z t.ty { (Arr.Array.empty : Arr.Array β) with size := n, data := vresize z [] (n * t.ty.rs.toNat) } := fun n =>
      ⟨[.resize1 true n], by simp only [run, step, resize1, hl]; rfl, fun v hv => by simp [Usable, hl], fun a' _ => trivial⟩
    obtain ⟨v, hv⟩ := ready_of z ht (hr 2) (hr 1) rfl (fun _ => by
      simp only [stride, hl]
      rcases layout_cases t.ty ht.lay with ⟨e, g⟩ | ⟨e, g⟩ | ⟨e, g, g'⟩ | ⟨e, g, g'⟩ | ⟨e, g, g'⟩ <;> rw [hl] at e <;> cases e
      omega) (by unfold kind; rw [hl]; simp) hp
    exact ⟨_, v, hv, rfl⟩
  have ragged : ∀ {β : Type} (z : β) (t : STy), t.ty.layout = .csr → Valid t → ∃ (x : Dist β) (v : _), Ready z t 2 x v ∧ x.length = 2 := by
    intro β z t hl ht
    have hr2 : Reachable z t.ty { (Arr.Array.empty : Arr.Array β) with size := 2, dataU := [[], [z, z, z]] } :=
      ⟨[.resize1 true 2, .resizeRow 1 3], by simp only [run, step, resize1, resizeRow, hl]; rfl,
        fun v hv => by simp [Usable, hl, Arr.Array.empty], fun a' _ => ⟨fun v hv => by simp [Usable, int32Max], fun a' _ => trivial⟩⟩
    have hr1 : Reachable z t.ty { (Arr.Array.empty : Arr.Array β) with size := 1, dataU := [[z]] } :=
      ⟨[.resize1 true 1, .resizeRow 0 1], by simp only [run, step, resize1, resizeRow, hl]; rfl,
        fun v hv => by simp [Usable, hl, Arr.Array.empty], fun a' _ => ⟨fun v hv => by simp [Usable, int32Max], fun a' _ => trivial⟩⟩
    obtain ⟨v, hv⟩ := ready_of z ht hr2 hr1 rfl (fun h => by unfold kind at h; rw [hl] at h; cases h) (by unfold kind; rw [hl]; simp) hp
    exact ⟨_, v, hv, rfl⟩
  obtain ⟨v1, v2, v3, v4, v5⟩ := valid_mesh
  obtain ⟨a, av, a1, -⟩ := fixed (0 : Rat) coordT (by decide) (by decide) v1
  obtain ⟨b, bv, b1, b2⟩ := ragged (0 : Int) adjT (by decide) v2
  obtain ⟨c, cv, c1, -⟩ := fixed (0 : Nat) infoT (by decide) (by decide) v4
  obtain ⟨d, dv, d1, -⟩ := fixed (0 : Int) adj2T (by decide) (by decide) v3
  obtain ⟨e, ev, e1, -⟩ := ragged (0 : Nat) pbiT (by decide) v5
  let p : Per Rat := ⟨fun i j => i + j.val, fun i j => i * j.val, fun i j => 10 * i + j.val⟩
  exact ⟨⟨3, true, true, a, b, b, c, b, d, c, e, [p, p]⟩, ⟨3, true, av, bv, bv, cv, bv, dv, cv, ev, [p, p]⟩,
    ⟨rfl, rfl, rfl, a1, b1, b1, c1, b1, d1, c1, fun _ => e1, fun _ => ⟨rfl, rfl⟩⟩, rfl, b2⟩

/-- rows of matrices: a reader with dynamic number of rows for files with static number, and the other way round -/
example : MCompatible ⟨3, -1, 3, -1⟩ ⟨-1, -1, -1, -1⟩ [3, 3] ∧ MCompatible ⟨-1, -1, -1, -1⟩ ⟨3, -1, 3, -1⟩ [3, 3] ∧
    MCompatible ⟨-2, -1, -1, -1⟩ ⟨-2, -1, -1, -1⟩ [2, 5] ∧ ¬ MCompatible ⟨-2, -1, -1, -1⟩ ⟨-1, -1, -1, -1⟩ [2, 5] := by
  refine ⟨?_, ?_, ?_, ?_⟩
  · constructor <;> decide
  · constructor <;> decide
  · constructor <;> decide
  · intro h
    have := h.uniform (by decide)
    revert this
    decide

example : fourDigits 7 = "0007".toList ∧ fourDigits 12345 = "12345".toList := by
  constructor <;> simp [fourDigits, digits] <;> decide

example : otherRestart [0, 2] 3 4 ([[1, 2, 3]], [[4, 5, 6]]) ([[10, 20, 30, 40]], [[50, 60, 70, 80]]) = .ok ([[10, 2, 30]], [[50, 5, 70]]) := by
  simp [otherRestart, forRanks, idx, storeDims, Res.assert]

end DNDSR.PSer
