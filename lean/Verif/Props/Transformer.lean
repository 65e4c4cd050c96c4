import Verif.Spec.Transformer
import Verif.Proof.TransInSitu
import Verif.Props.IndexMapping

/-!
# Ghost communication: C07, C08, C09
-/

namespace DNDSR.Tran

open DNDSR.Arr hiding Array
open DNDSR.IMap

variable {α : Type}

theorem setup_ready {z : α} {ty : Ty} {lens : List Nat} {w : World α} (h : Setup z ty lens w) :
    Ready ty lens w := by
  refine ⟨h.nfathers, h.nsons, ?_, ?_, ?_⟩
  · intro r fa hfa
    obtain ⟨h1, h2⟩ := h.father r fa hfa
    exact ⟨reachable_inv z h.layout h1, h2⟩
  · intro s so hso; exact reachable_inv z h.layout (h.son s so hso)
  · intro r s fr fs hr hs
    by_cases hc : ty.layout = .csr
    · simp [stride, hc]
    · have h1 := h.width hc r s fr fs hr hs
      have e1 := (represents_valOf (reachable_inv z h.layout (h.father r fr hr).1)).width hc
      have e2 := (represents_valOf (reachable_inv z h.layout (h.father s fs hs).1)).width hc
      rw [e1, e2] at h1
      exact Res.ok.inj h1

theorem maps_of {lens : List Nat} {g : GOM} (hg : Built lens g) (reqs : List (List Int))
    (hn : reqs.length = lens.length) (maps : List Map) (h : createPull g lens reqs = .ok maps) :
    Maps lens reqs maps := by
  obtain ⟨h1, h2⟩ := createPull_spec hg reqs hn maps h
  exact ⟨h1, hn, h2⟩

theorem sameRow_of {ty : Ty} {a b : Arr.Array α} (ha : Flat ty a) (hb : Flat ty b) (i k : Nat)
    (hi : i < a.size) (hk : k < b.size) (hl : lenOf ty a i = lenOf ty b k) (hs : srow ty a i = srow ty b k) :
    SameRow ty a i b k := by
  obtain ⟨h1, h2⟩ := read_of_row_eq ha.inv hb.inv i k _ (ha.row i hi) (by rw [hb.row k hk, hl, hs])
  exact ⟨⟨_, ha.rowSize i hi, by rw [← h1]; exact ha.rowSize i hi⟩, h2⟩

theorem act_wired {ty : Ty} {lens : List Nat} {maps : List Map}
    (hm : Links lens maps) (hd : Distinct maps) {types : List Types} {w w' : World α} (h : Wired ty lens maps w types)
    (a : Act α) (hp : ∀ o, a = .pull o ∨ a = .push o → ∀ p ∈ o, p.1 < lens.length ∧ p.2 < lens.length)
    (ha : act ty types w a = .ok w') : Wired ty lens maps w' types := by
  cases a with
  | writeFather r i j v =>
    simp only [act, Res.bind_ok_iff, idx_ok_iff, Res.ok.injEq] at ha
    obtain ⟨fa, h1, fa', h2, rfl⟩ := ha
    apply h.shape
    refine ⟨by simp, rfl, ?_, ?_⟩
    · intro t f1 f2 e1 e2
      simp only [set_get _ _ _ _ _ h1] at e2
      by_cases htr : t = r
      · subst htr
        rw [if_pos rfl] at e2
        rw [h1] at e1
        cases e1; cases e2
        exact write_sameShape (z := v) (h.fa _ _ h1).1 i j v h2
      · rw [if_neg htr, e1] at e2; cases e2; exact SameShape.refl _
    · intro t s1 s2 e1 e2
      have e2' : w.sons[t]? = some s2 := e2
      rw [e1] at e2'; cases e2'; exact SameShape.refl _
  | writeSon s i j v =>
    simp only [act, Res.bind_ok_iff, idx_ok_iff, Res.ok.injEq] at ha
    obtain ⟨so, h1, so', h2, rfl⟩ := ha
    have hs : s < lens.length := by
      have := (List.getElem?_eq_some_iff.1 h1).1
      rw [h.sl] at this; exact this
    have hms : maps[s]? = some (maps[s]'(by rw [hm.len]; exact hs)) := by simp
    apply h.shape
    refine ⟨rfl, by simp, ?_, ?_⟩
    · intro t s1 s2 e1 e2
      have e2' : w.fathers[t]? = some s2 := e2
      rw [e1] at e2'; cases e2'; exact SameShape.refl _
    · intro t f1 f2 e1 e2
      simp only [set_get _ _ _ _ _ h1] at e2
      by_cases htr : t = s
      · subst htr
        rw [if_pos rfl] at e2
        rw [h1] at e1
        cases e1; cases e2
        exact write_sameShape (z := v) (h.so _ _ _ h1 hms).1 i j v h2
      · rw [if_neg htr, e1] at e2; cases e2; exact SameShape.refl _
  | pull order =>
    obtain ⟨w1, h1, h2, _⟩ := pull_spec hm order w h (hp order (Or.inl rfl))
    simp only [act] at ha
    rw [h1] at ha
    cases Res.ok.inj ha
    exact h.shape h2
  | push order =>
    obtain ⟨w1, h1, h2, _⟩ := push_spec hm hd order w h (hp order (Or.inr rfl))
    simp only [act] at ha
    rw [h1] at ha
    cases Res.ok.inj ha
    exact h.shape h2

/-- all communication in a program concerns existing ranks -/
def InRange (n : Nat) (acts : List (Act α)) : Prop :=
  ∀ o, (Act.pull o ∈ acts ∨ Act.push o ∈ acts) → ∀ p ∈ o, p.1 < n ∧ p.2 < n

theorem runActs_wired {ty : Ty} {lens : List Nat} {maps : List Map}
    (hm : Links lens maps) (hd : Distinct maps) {types : List Types} : ∀ (acts : List (Act α)) (w w' : World α),
    Wired ty lens maps w types → InRange lens.length acts → runActs ty types w acts = .ok w' →
    Wired ty lens maps w' types := by
  intro acts
  induction acts with
  | nil => intro w w' h _ hr; cases hr; exact h
  | cons a as ih =>
    intro w w' h hp hr
    simp only [runActs, Res.bind_ok_iff] at hr
    obtain ⟨w1, h1, h2⟩ := hr
    refine ih w1 w' (act_wired hm hd h a ?_ h1) (fun o ho => hp o (by
      rcases ho with ho | ho
      · exact Or.inl (List.mem_cons_of_mem _ ho)
      · exact Or.inr (List.mem_cons_of_mem _ ho))) h2
    rintro o (rfl | rfl)
    · exact hp o (Or.inl (by simp))
    · exact hp o (Or.inr (by simp))

theorem createTypes_wired {z : α} {ty : Ty} {u : Bool} {lens : List Nat}
    {maps : List Map} (hm : Links lens maps) {w w1 : World α} {types : List Types}
    (hw : Ready ty lens w) (h : createTypes z ty u maps w = .ok (w1, types)) :
    Wired ty lens maps w1 types := by
  obtain ⟨f, s, _, _, _, ⟨h1, _⟩ | ⟨t, h1, h2⟩⟩ := createTypes_spec z u hm hw
  · rw [h1] at h; cases h
  · rw [h1] at h; cases h; exact h2

theorem createTypes_total_links {z : α} {ty : Ty} (u : Bool) {lens : List Nat} {maps : List Map}
    (hm : Links lens maps) (w : World α) (hw : Setup z ty lens w) :
    createTypes z ty u maps w ≠ .ub ∧
    (∀ L, IsSlotLen ty lens w.fathers L →
      (∀ (s : Nat) (ms : Map), maps[s]? = some ms → (ms.ghostIndex.map L).sum < int32Max) →
     ∃ w1 types, createTypes z ty u maps w = .ok (w1, types)) := by
  have hr := setup_ready hw
  obtain ⟨f, so, hfl, hsl, hval, ⟨h1, s, sa, ms, h2, h0, h3, h4, h5, h6⟩ | ⟨t, h1, h2⟩⟩ := createTypes_spec z u hm hr
  · refine ⟨by rw [h1]; simp, ?_⟩
    intro L hL hb
    exfalso
    have hlt := hb s ms h2
    have hsum := (sum_slen h4 sa.size 0 (by omega)).1
    rw [h4.start_zero h0, Nat.zero_add, Nat.sub_zero] at hsum
    have : (List.range' 0 sa.size).map (slenOf ty sa) = ms.ghostIndex.map L := by
      apply List.ext_getElem?
      intro k
      rw [List.getElem?_map, List.getElem?_map]
      by_cases hk : k < sa.size
      · rw [List.getElem?_range' hk]
        have hkq : ms.ghostIndex[k]? = some (ms.ghostIndex[k]'(by omega)) := by simp
        generalize ms.ghostIndex[k]'(by omega) = q at hkq
        obtain ⟨r, ho⟩ := hm.owner h2 k q hkq
        have hrl : r < w.fathers.length := by rw [hr.fl]; exact ho.1
        have hfa : w.fathers[r]? = some w.fathers[r] := by simp [hrl]
        generalize w.fathers[r] = fa at hfa
        obtain ⟨fa', e1, e2, e3, fl⟩ := hval r fa hfa
        have h7 := h6 k q r fa' hkq ho e1
        obtain ⟨i1, i2⟩ := hr.fa r fa hfa
        obtain ⟨l1, l2⟩ := locRow_lt ho _ i2
        have h8 := hL r fa q hfa ho
        rw [hkq, Nat.zero_add, Nat.one_mul, Option.map_some, Option.map_some, h7]
        congr 1
        by_cases hc : ty.layout = .csr
        · rw [if_pos hc, ownRow, ← l2] at h8
          obtain ⟨row, g1, g2⟩ := rowSize_eq i1 _ l1
          rw [g2] at h8
          have g3 : (rowsOf ty fa')[locRow lens r q]? = some row := by
            rw [← g1]; exact congrArg (fun v : Val α => v.rows[locRow lens r q]?) e2
          rw [fl.row _ (by omega)] at g3
          rw [← lenOf_csr hc, ← Res.ok.inj h8, ← Option.some.inj g3, List.length_take,
            fl.srow_length _ (by omega), Nat.min_eq_left (fl.len_le _ (by omega))]
        · rw [if_neg hc] at h8
          have := (represents_valOf i1).width hc
          rw [h8] at this
          rw [slenOf_table hc, Res.ok.inj this]
          exact (congrArg (fun v : Val α => v.width) e2)
      · rw [List.getElem?_eq_none (by simp; omega), List.getElem?_eq_none (by omega)]
        rfl
    rw [this] at hsum
    omega
  · exact ⟨by rw [h1]; simp, fun _ _ _ => ⟨_, _, h1⟩⟩

/-- **C07, C08**, setting up: `createMPITypes` never reaches undefined behaviour, and returns unless the
ghost rows of some rank need `INT_MAX` or more elements of storage (the assertion on the span). -/
theorem createTypes_total {z : α} {ty : Ty} (u : Bool) {lens : List Nat} {g : GOM} (hg : Built lens g)
    (reqs : List (List Int)) (hn : reqs.length = lens.length) (maps : List Map)
    (hmaps : createPull g lens reqs = .ok maps) (w : World α) (hw : Setup z ty lens w) :
    createTypes z ty u maps w ≠ .ub ∧
    (∀ L, IsSlotLen ty lens w.fathers L →
      (∀ (s : Nat) (ms : Map), maps[s]? = some ms → (ms.ghostIndex.map L).sum < int32Max) →
     ∃ w1 types, createTypes z ty u maps w = .ok (w1, types)) :=
  createTypes_total_links u (maps_of hg reqs hn maps hmaps).links w hw

/-- **C07, C08**, setting up: `createMPITypes` does not change what the fathers show. -/
theorem createTypes_father {z : α} {ty : Ty} {u : Bool} {lens : List Nat} {g : GOM} (hg : Built lens g)
    (reqs : List (List Int)) (hn : reqs.length = lens.length) (maps : List Map)
    (hmaps : createPull g lens reqs = .ok maps) (w w1 : World α) (types : List Types) (hw : Setup z ty lens w)
    (hc : createTypes z ty u maps w = .ok (w1, types)) (r : Nat) (fa : Arr.Array α)
    (hfa : w.fathers[r]? = some fa) :
    ∃ fa', w1.fathers[r]? = some fa' ∧ fa'.size = fa.size ∧
      ∀ i : Nat, i < fa.size → SameRow ty fa' i fa i := by
  have hm := maps_of hg reqs hn maps hmaps
  have hr := setup_ready hw
  obtain ⟨f, so, hfl, hsl, hval, ⟨h1, _⟩ | ⟨t, h1, h2⟩⟩ := createTypes_spec z u hm.links hr
  · rw [h1] at hc; cases hc
  · rw [h1] at hc; cases hc
    obtain ⟨fa', e1, e2, e3, _⟩ := hval r fa hfa
    refine ⟨fa', e1, e3, ?_⟩
    intro i hi
    have ia := (hr.fa r fa hfa).1
    have ib := (h2.fa r fa' e1).1.inv
    obtain ⟨row, h3, h4⟩ := rowSize_eq ia i hi
    have h5 : (rowsOf ty fa')[i]? = some row := by
      rw [← h3]; exact congrArg (fun v : Val α => v.rows[i]?) e2
    obtain ⟨h6, h7⟩ := read_of_row_eq ib ia i i row h5 h3
    exact ⟨⟨_, by rw [h6]; exact h4, h4⟩, h7⟩

/-- **C07**. After `createMPITypes` and any program of element writes, pulls and pushes, a pull whose
messages arrive in any order returns, leaves every father as it was, and makes every ghost row equal to
the owner's row of the same global index, in every layout. -/
theorem pull_delivers {z : α} {ty : Ty} {u : Bool} {lens : List Nat} {g : GOM} (hg : Built lens g)
    (reqs : List (List Int)) (hn : reqs.length = lens.length) (maps : List Map)
    (hmaps : createPull g lens reqs = .ok maps) (w w1 w2 : World α) (types : List Types)
    (hw : Setup z ty lens w) (hc : createTypes z ty u maps w = .ok (w1, types)) (acts : List (Act α))
    (hacts : InRange lens.length acts) (hrun : runActs ty types w1 acts = .ok w2)
    (order : List (Nat × Nat)) (ho : AllPairs lens.length order) :
    ∃ w3, pull types w2 order = .ok w3 ∧ w3.fathers = w2.fathers ∧
      ∀ (s : Nat) (ms : Map) (so : Arr.Array α), maps[s]? = some ms → w3.sons[s]? = some so →
        so.size = ms.ghostIndex.length ∧
        ∀ (k : Nat) (q : Int) (r : Nat) (fa : Arr.Array α), ms.ghostIndex[k]? = some q → Owns lens r q →
          w2.fathers[r]? = some fa → SameRow ty so k fa (ownRow lens r q) := by
  have hm := maps_of hg reqs hn maps hmaps
  have hwd := runActs_wired hm.links hm.distinct acts w1 w2 (createTypes_wired hm.links (setup_ready hw) hc) hacts hrun
  obtain ⟨w3, h1, h2, h3, h4⟩ := pull_spec hm.links order w2 hwd (fun p hp => (ho p).1 hp)
  refine ⟨w3, h1, h3, ?_⟩
  intro s ms so hms hso
  have hwd3 := hwd.shape h2
  obtain ⟨e1, e2⟩ := hwd3.so s so ms hso hms
  refine ⟨e2, ?_⟩
  intro k q r fa hk hq hfa
  obtain ⟨so2, hso2⟩ := get_of_len h2.sl hso
  have hs : s < lens.length := by
    have := (List.getElem?_eq_some_iff.1 hms).1
    rw [hm.len] at this; exact this
  have h5 := (h4 s r fa so2 so ms k q hfa hso2 hso hms hk hq).1 ((ho (r, s)).2 ⟨hq.1, hs⟩)
  have h6 := (hwd3.row r s fa so ms k q (by rw [h3]; exact hfa) hso hms hk hq).2
  obtain ⟨e3, e4⟩ := hwd.fa r fa hfa
  obtain ⟨e5, e6⟩ := locRow_lt hq _ e4
  have := sameRow_of e1 e3 k (locRow lens r q) (by
    have := (List.getElem?_eq_some_iff.1 hk).1; omega) e5 h6 h5
  rw [e6] at this
  exact this

/-- **C08**. After `createMPITypes` and any program of element writes, pulls and pushes, a push whose
messages arrive in any order returns, leaves every son as it was, leaves the rows nobody asked for as
they were, and makes every requested row equal to the ghost copy of the requester whose message arrives
last; if there is only one requester, to that requester's copy. -/
theorem push_writes_back {z : α} {ty : Ty} {u : Bool} {lens : List Nat} {g : GOM} (hg : Built lens g)
    (reqs : List (List Int)) (hn : reqs.length = lens.length) (maps : List Map)
    (hmaps : createPull g lens reqs = .ok maps) (w w1 w2 : World α) (types : List Types)
    (hw : Setup z ty lens w) (hc : createTypes z ty u maps w = .ok (w1, types)) (acts : List (Act α))
    (hacts : InRange lens.length acts) (hrun : runActs ty types w1 acts = .ok w2)
    (order : List (Nat × Nat)) (ho : AllPairs lens.length order) :
    ∃ w3, push types w2 order = .ok w3 ∧ w3.sons = w2.sons ∧
      ∀ (r : Nat) (fa2 fa3 : Arr.Array α) (q : Int), w2.fathers[r]? = some fa2 → w3.fathers[r]? = some fa3 →
        Owns lens r q →
        fa3.size = fa2.size ∧
        ((∀ (s : Nat) (req : List Int), reqs[s]? = some req → q ∉ req) →
          SameRow ty fa3 (ownRow lens r q) fa2 (ownRow lens r q)) ∧
        (∀ pre s post (so : Arr.Array α) (ms : Map) (k : Nat), order = pre ++ (s, r) :: post →
          (∀ (s' : Nat) (req : List Int), (s', r) ∈ post → reqs[s']? = some req → q ∉ req) →
          w2.sons[s]? = some so → maps[s]? = some ms → ms.ghostIndex[k]? = some q →
          SameRow ty fa3 (ownRow lens r q) so k) ∧
        (∀ (s : Nat) (so : Arr.Array α) (ms : Map) (k : Nat),
          (∀ (s' : Nat) (req : List Int), reqs[s']? = some req → q ∈ req → s' = s) →
          w2.sons[s]? = some so → maps[s]? = some ms → ms.ghostIndex[k]? = some q →
          SameRow ty fa3 (ownRow lens r q) so k) ∧
        ((∃ (s : Nat) (req : List Int), reqs[s]? = some req ∧ q ∈ req) →
          ∃ (s : Nat) (so : Arr.Array α) (ms : Map) (k : Nat), w2.sons[s]? = some so ∧ maps[s]? = some ms ∧
            ms.ghostIndex[k]? = some q ∧ SameRow ty fa3 (ownRow lens r q) so k) := by
  have hm := maps_of hg reqs hn maps hmaps
  have hwd := runActs_wired hm.links hm.distinct acts w1 w2 (createTypes_wired hm.links (setup_ready hw) hc) hacts hrun
  obtain ⟨w3, h1, h2, h3, h4⟩ := push_spec hm.links hm.distinct order w2 hwd (fun p hp => (ho p).1 hp)
  refine ⟨w3, h1, h3, ?_⟩
  intro r fa2 fa3 q hf2 hf3 hq
  have hwd3 := hwd.shape h2
  obtain ⟨e1, e2⟩ := hwd.fa r fa2 hf2
  obtain ⟨e3, e4⟩ := hwd3.fa r fa3 hf3
  obtain ⟨e5, e6⟩ := locRow_lt hq _ e2
  have hsh := h2.fathers r fa2 fa3 hf2 hf3
  obtain ⟨a1, a2⟩ := h4 r fa2 fa3 q hf2 hf3 hq
  have hreq : ∀ s, Requests maps s q ↔ ∃ req, reqs[s]? = some req ∧ q ∈ req := by
    intro s
    constructor
    · rintro ⟨ms, hms, hmem⟩
      obtain ⟨req, h5, h6⟩ := (hm.ok s ms hms).req
      exact ⟨req, h5, (h6.mem q).1 hmem⟩
    · rintro ⟨req, h5, h6⟩
      have hs : s < maps.length := by
        have := (List.getElem?_eq_some_iff.1 h5).1
        rw [hm.len, ← hm.rlen]; exact this
      obtain ⟨req', h7, h8⟩ := (hm.ok s maps[s] (by simp [hs])).req
      rw [h5] at h7; cases h7
      exact ⟨maps[s], by simp [hs], (h8.mem q).2 h6⟩
  have hlast : ∀ pre s post (so : Arr.Array α) (ms : Map) (k : Nat), order = pre ++ (s, r) :: post →
      (∀ s', (s', r) ∈ post → ¬ Requests maps s' q) →
      w2.sons[s]? = some so → maps[s]? = some ms → ms.ghostIndex[k]? = some q →
      SameRow ty fa3 (ownRow lens r q) so k := by
    intro pre s post so ms k hord hl hso hms hk
    have h5 := a2 pre s post so ms k hord hl hso hms hk
    obtain ⟨e7, e8⟩ := hwd.so s so ms hso hms
    have h6 := (hwd3.row r s fa3 so ms k q hf3 (by rw [h3]; exact hso) hms hk hq).2
    have := sameRow_of e3 e7 (locRow lens r q) k (by rw [hsh.size]; exact e5) (by
      have := (List.getElem?_eq_some_iff.1 hk).1; omega) h6.symm h5
    rw [e6] at this
    exact this
  -- the last requester in the order
  have hex : (∃ s, Requests maps s q) → ∃ pre s post, order = pre ++ (s, r) :: post ∧ Requests maps s q ∧
      ∀ s', (s', r) ∈ post → ¬ Requests maps s' q := by
    rintro ⟨s0, hs0⟩
    have hmem : ∃ s, (s, r) ∈ order ∧ Requests maps s q := by
      refine ⟨s0, ?_, hs0⟩
      rw [ho]
      obtain ⟨ms, hms, _⟩ := hs0
      refine ⟨?_, hq.1⟩
      have := (List.getElem?_eq_some_iff.1 hms).1
      rw [hm.len] at this; exact this
    clear h1 h2 h3 h4 hwd3 hf3 e3 e4 hsh a1 a2 hlast ho
    induction order with
    | nil => obtain ⟨s, h5, _⟩ := hmem; simp at h5
    | cons p rest ih =>
      by_cases hin : ∃ s', (s', r) ∈ rest ∧ Requests maps s' q
      · obtain ⟨pre, s, post, h7, h8⟩ := ih hin
        exact ⟨p :: pre, s, post, by rw [h7]; rfl, h8⟩
      · obtain ⟨s, h5, h6⟩ := hmem
        rcases List.mem_cons.1 h5 with rfl | h5
        · exact ⟨[], s, rest, rfl, h6, fun s' h7 h8 => hin ⟨s', h7, h8⟩⟩
        · exact absurd ⟨s, h5, h6⟩ hin
  refine ⟨hsh.size, ?_, ?_, ?_, ?_⟩
  · intro hno
    have h5 := a1 (fun s _ hx => by
      obtain ⟨req, h6, h7⟩ := (hreq s).1 hx
      exact hno s req h6 h7)
    have := sameRow_of e3 e1 (locRow lens r q) (locRow lens r q) (by rw [hsh.size]; exact e5) e5
      (hsh.lenOf _) h5
    rw [e6] at this
    exact this
  · intro pre s post so ms k hord hl
    exact hlast pre s post so ms k hord (fun s' h5 h6 => by
      obtain ⟨req, h7, h8⟩ := (hreq s').1 h6
      exact hl s' req h5 h7 h8)
  · intro s so ms k huniq hso hms hk
    obtain ⟨pre, s1, post, h5, h6, h7⟩ := hex ⟨s, ms, hms, List.mem_of_getElem? hk⟩
    obtain ⟨req, h8, h9⟩ := (hreq s1).1 h6
    have := huniq s1 req h8 h9
    subst this
    exact hlast pre s1 post so ms k h5 h7 hso hms hk
  · rintro ⟨s, req, h5, h6⟩
    obtain ⟨pre, s1, post, h7, ⟨ms, hms, hmem⟩, h9⟩ := hex ⟨s, (hreq s).2 ⟨req, h5, h6⟩⟩
    obtain ⟨k, hk, hkq⟩ := List.mem_iff_getElem.1 hmem
    have hk' : ms.ghostIndex[k]? = some q := by rw [List.getElem?_eq_getElem hk, hkq]
    have hs1 : s1 < w2.sons.length := by
      have := (List.getElem?_eq_some_iff.1 hms).1
      rw [hwd.sl, ← hm.len]; exact this
    exact ⟨s1, w2.sons[s1], ms, k, by simp [hs1], hms, hk', hlast pre s1 post _ ms k h7 h9 (by simp [hs1]) hms hk'⟩

theorem mem_allPairs (n a b : Nat) : (a, b) ∈ allPairs n ↔ a < n ∧ b < n := by
  simp only [allPairs, List.mem_flatten, List.mem_map, List.mem_range]
  constructor
  · rintro ⟨l, ⟨r, hr, rfl⟩, h⟩
    simp only [List.mem_map, List.mem_range, Prod.mk.injEq] at h
    obtain ⟨s, hs, rfl, rfl⟩ := h
    exact ⟨hr, hs⟩
  · rintro ⟨ha, hb⟩
    exact ⟨_, ⟨a, ha, rfl⟩, by simpa using hb⟩

theorem allPairs_all (n : Nat) : AllPairs n (allPairs n) := fun p => mem_allPairs n p.1 p.2

/-! ### a three-rank CSR array -/

/-- fathers with rows `[[10], [11, 12]]`, none, and `[[20], [], [22, 23]]` -/
def demoWorld : World Nat :=
  ⟨[⟨none, none, [], [[10], [11, 12]], 2, 0⟩, Arr.Array.empty, ⟨none, none, [], [[20], [], [22, 23]], 3, 0⟩],
   [Arr.Array.empty, Arr.Array.empty, Arr.Array.empty]⟩

theorem empty_reachable (z : α) (ty : Ty) : Reachable z ty (Arr.Array.empty : Arr.Array α) :=
  ⟨[], rfl, trivial⟩

theorem demo_setup : Setup 0 ⟨-2, -2⟩ [2, 0, 3] demoWorld := by
  have hl : Ty.layout ⟨-2, -2⟩ = .csr := by decide
  have r0 : Reachable 0 ⟨-2, -2⟩ (⟨none, none, [], [[10], [11, 12]], 2, 0⟩ : Arr.Array Nat) := by
    refine ⟨[.resize1 true 2, .resizeRow 0 1, .resizeRow 1 2, .write 0 0 10, .write 1 0 11, .write 1 1 12], rfl, ?_⟩
    refine ⟨fun _ _ => by simp [Usable, hl, Arr.Array.empty], fun a h => ?_⟩
    cases h
    refine ⟨fun _ _ => by simp [Usable, int32Max], fun a h => ?_⟩
    cases h
    refine ⟨fun _ _ => by simp [Usable, int32Max], fun a h => ?_⟩
    cases h
    exact ⟨fun _ _ => by simp [Usable], fun a h => ⟨fun _ _ => by simp [Usable], fun a h =>
      ⟨fun _ _ => by simp [Usable], fun a h => trivial⟩⟩⟩
  have r2 : Reachable 0 ⟨-2, -2⟩ (⟨none, none, [], [[20], [], [22, 23]], 3, 0⟩ : Arr.Array Nat) := by
    refine ⟨[.resize1 true 3, .resizeRow 0 1, .resizeRow 2 2, .write 0 0 20, .write 2 0 22, .write 2 1 23], rfl, ?_⟩
    refine ⟨fun _ _ => by simp [Usable, hl, Arr.Array.empty], fun a h => ?_⟩
    cases h
    refine ⟨fun _ _ => by simp [Usable, int32Max], fun a h => ?_⟩
    cases h
    refine ⟨fun _ _ => by simp [Usable, int32Max], fun a h => ?_⟩
    cases h
    exact ⟨fun _ _ => by simp [Usable], fun a h => ⟨fun _ _ => by simp [Usable], fun a h =>
      ⟨fun _ _ => by simp [Usable], fun a h => trivial⟩⟩⟩
  refine ⟨by decide, rfl, rfl, ?_, ?_, fun h => absurd hl h⟩
  · intro r fa h
    match r with
    | 0 => cases h; exact ⟨r0, rfl⟩
    | 1 => cases h; exact ⟨empty_reachable _ _, rfl⟩
    | 2 => cases h; exact ⟨r2, rfl⟩
  · intro r so h
    match r with
    | 0 => cases h; exact empty_reachable _ _
    | 1 => cases h; exact empty_reachable _ _
    | 2 => cases h; exact empty_reachable _ _

-- requests `[[4, 2, 4], [], [0, 3]]`: set up, pull, and read the ghosts of ranks 0 and 2
example : ∃ w1 types w2, createTypes 0 ⟨-2, -2⟩ true demoMaps demoWorld = .ok (w1, types) ∧
    pull types w1 (allPairs 3) = .ok w2 ∧
    w2.sons.map (rowsOf ⟨-2, -2⟩) = [[[20], [22, 23]], [], [[10], []]] := by
  refine ⟨_, _, _, rfl, rfl, ?_⟩; decide

-- pull, overwrite a ghost, push, and read the owner's row
example : ∃ w1 types w2, createTypes 0 ⟨-2, -2⟩ true demoMaps demoWorld = .ok (w1, types) ∧
    runActs ⟨-2, -2⟩ types w1 [.pull (allPairs 3), .writeSon 0 1 1 99, .push (allPairs 3)] = .ok w2 ∧
    w2.fathers.map (rowsOf ⟨-2, -2⟩) = [[[10], [11, 12]], [], [[20], [], [22, 99]]] := by
  refine ⟨_, _, _, rfl, rfl, ?_⟩; decide

-- the hypotheses of the theorems above hold of it
example : ∃ w1 types, createTypes 0 ⟨-2, -2⟩ true demoMaps demoWorld = .ok (w1, types) ∧
    ∃ w3, pull types w1 (allPairs 3) = .ok w3 ∧ w3.fathers = w1.fathers := by
  refine ⟨_, _, rfl, ?_⟩
  obtain ⟨w3, h1, h2, _⟩ := pull_delivers demo_searches.1 demoReqs rfl demoMaps demo_maps demoWorld _ _ _
    demo_setup (u := true) rfl [] (by intro o h; simp at h) rfl (allPairs 3) (by
      intro p
      obtain ⟨a, b⟩ := p
      exact mem_allPairs 3 a b)
  exact ⟨w3, h1, h2⟩

-- a non-constant slot length for `createTypes_total`
example : createTypes 0 ⟨-2, -2⟩ true demoMaps demoWorld ≠ .ub ∧
    ∃ w1 types, createTypes 0 ⟨-2, -2⟩ true demoMaps demoWorld = .ok (w1, types) := by
  obtain ⟨h1, h2⟩ := createTypes_total true demo_searches.1 demoReqs rfl demoMaps demo_maps demoWorld demo_setup
  refine ⟨h1, h2 (fun q => [1, 2, 1, 0, 2][q.toNat]?.getD 0) ?_ ?_⟩
  · intro r fa q hfa ho
    rw [if_pos (by decide)]
    obtain ⟨h3, h4, h5⟩ := ho
    match r, hfa with
    | 0, rfl =>
      have : q = 0 ∨ q = 1 := by simp [before] at h4 h5; omega
      rcases this with rfl | rfl <;> rfl
    | 1, rfl => simp [before] at h4 h5; omega
    | 2, rfl =>
      have : q = 2 ∨ q = 3 ∨ q = 4 := by simp [before] at h4 h5; omega
      rcases this with rfl | rfl | rfl <;> rfl
  · intro s ms hms
    match s, hms with
    | 0, rfl => decide
    | 1, rfl => decide
    | 2, rfl => decide

/-! ### C09: packing in place instead of derived datatypes -/

/-- For every pair of ranks that exchanges rows, at least one of these rows is not empty. -/
def SomethingToSend (ty : Ty) (lens : List Nat) (reqs : List (List Int)) (fathers : List (Arr.Array α)) : Prop :=
  ∀ (s r : Nat) (req : List Int) (q : Int), reqs[s]? = some req → q ∈ req → Owns lens r q →
    ∃ (q' : Int) (fa : Arr.Array α) (n : Nat), q' ∈ req ∧ Owns lens r q' ∧ fathers[r]? = some fa ∧
      rowSize ty fa (ownRow lens r q') = .ok n ∧ 0 < n

/-- `w2` differs from `w1` only in the elements of the father rows -/
structure OnlyElements (z : α) (ty : Ty) (w1 w2 : World α) : Prop where
  sons : w2.sons = w1.sons
  nfathers : w2.fathers.length = w1.fathers.length
  father : ∀ (r : Nat) (f1 f2 : Arr.Array α), w1.fathers[r]? = some f1 → w2.fathers[r]? = some f2 →
    Reachable z ty f2 ∧ f2.size = f1.size ∧ ∀ i : Nat, i < f1.size → rowSize ty f2 i = rowSize ty f1 i

theorem rowOf_length_eq {ty : Ty} {a b : Arr.Array α} (ha : Inv ty a) (hb : Inv ty b) (i k : Nat)
    (hi : i < a.size) (hk : k < b.size) (h : rowSize ty a i = rowSize ty b k) :
    (rowOf ty a i).length = (rowOf ty b k).length := by
  rw [(rowOf_get ha i hi).2, (rowOf_get hb k hk).2] at h
  exact Res.ok.inj h

/-- **C09**, layouts without unused slots (CSR and the two fixed-width ones), pull: setting up in-situ
packing returns, and after any change of the father elements, a pull whose messages arrive in any order
delivers what the derived-datatype pull delivers, provided no pair of ranks exchanges only empty rows.
Missing for the full property: the padded layouts, pairs that exchange only empty rows, and the push;
all three fail, see below. -/
theorem inSitu_pull_partial {z : α} {ty : Ty} (u : Bool)
    (hnp : ty.layout = .csr ∨ ty.layout = .fixed ∨ ty.layout = .staticFixed)
    {lens : List Nat} {g : GOM} (hg : Built lens g)
    (reqs : List (List Int)) (hn : reqs.length = lens.length) (maps : List Map)
    (hmaps : createPull g lens reqs = .ok maps) (w : World α)
    (hw : Setup z ty lens w) (order : List (Nat × Nat)) (ho : AllPairs lens.length order) :
    ∃ w1 locs, createInSitu z ty u maps w = .ok (w1, locs) ∧ w1.fathers = w.fathers ∧
      ∀ w2 : World α, OnlyElements z ty w1 w2 → SomethingToSend ty lens reqs w2.fathers →
        ∃ w3, pullInSitu ty maps locs w2 order = .ok w3 ∧ w3.fathers = w2.fathers ∧
          ∀ (s : Nat) (ms : Map) (so : Arr.Array α), maps[s]? = some ms → w3.sons[s]? = some so →
            so.size = ms.ghostIndex.length ∧
            ∀ (k : Nat) (q : Int) (r : Nat) (fa : Arr.Array α), ms.ghostIndex[k]? = some q → Owns lens r q →
              w2.fathers[r]? = some fa → SameRow ty so k fa (ownRow lens r q) := by
  have hm := maps_of hg reqs hn maps hmaps
  obtain ⟨sons, locs, h1, h2⟩ := createInSitu_spec z hnp u hm.links (setup_ready hw)
  refine ⟨_, _, h1, rfl, ?_⟩
  intro w2 hel hst
  have hinv2 : ∀ (r : Nat) (f2 : Arr.Array α), w2.fathers[r]? = some f2 →
      ∃ f1, w.fathers[r]? = some f1 ∧ Inv ty f1 ∧ Inv ty f2 ∧ lens[r]? = some f1.size ∧ f2.size = f1.size ∧
        ∀ i : Nat, i < f1.size → (rowOf ty f2 i).length = (rowOf ty f1 i).length := by
    intro r f2 hf2
    obtain ⟨f1, hf1⟩ := get_of_len hel.nfathers hf2
    obtain ⟨e1, e2, e3⟩ := hel.father r f1 f2 hf1 hf2
    obtain ⟨i1, i2⟩ := h2.fa r f1 hf1
    have i3 := reachable_inv z hw.layout e1
    exact ⟨f1, hf1, i1, i3, i2, e2, fun i hi => rowOf_length_eq i3 i1 i i (by omega) hi (e3 i hi)⟩
  have hp2 : Packed ty lens maps w2 locs := by
    refine ⟨by rw [hel.nfathers]; exact h2.fl, by rw [hel.sons]; exact h2.sl, ?_, ?_, ?_, h2.locs⟩
    · intro r f2 hf2
      obtain ⟨f1, _, _, i2, i3, i4, _⟩ := hinv2 r f2 hf2
      exact ⟨i2, by rw [i4]; exact i3⟩
    · intro s so ms hso hms
      rw [hel.sons] at hso
      exact h2.so s so ms hso hms
    · intro r s f2 so ms k q hf2 hso hms hk hq
      rw [hel.sons] at hso
      obtain ⟨f1, j1, _, _, j3, _, j5⟩ := hinv2 r f2 hf2
      rw [j5 _ (locRow_lt hq _ j3).1]
      exact h2.row r s f1 so ms k q j1 hso hms hk hq
  have hns : NoSilentPair ty lens maps w2.fathers := by
    intro r s ms k q hms hk hq
    obtain ⟨req, h5, h6⟩ := (hm.ok s ms hms).req
    obtain ⟨q', fa, n, g1, g2, g3, g4, g5⟩ := hst s r req q h5 ((h6.mem q).1 (List.mem_of_getElem? hk)) hq
    obtain ⟨k', hk', hkq⟩ := List.mem_iff_getElem.1 ((h6.mem q').2 g1)
    obtain ⟨i1, i2⟩ := hp2.fa r fa g3
    obtain ⟨l1, l2⟩ := locRow_lt g2 _ i2
    refine ⟨k', q', fa, (List.getElem?_eq_getElem hk').trans (congrArg some hkq), g2, g3, ?_⟩
    rw [ownRow, ← l2, (rowOf_get i1 _ l1).2] at g4
    rw [Res.ok.inj g4]; exact g5
  obtain ⟨w3, f1, f2, f3, f4⟩ := pullInSitu_spec hnp hm.links order w2 hp2 hns (fun p hp => (ho p).1 hp)
  refine ⟨w3, f1, f3, ?_⟩
  intro s ms so hms hso
  have hp3 := hp2.shape f2 f3
  obtain ⟨e1, e2⟩ := hp3.so s so ms hso hms
  refine ⟨e2, ?_⟩
  intro k q r fa hk hq hfa
  obtain ⟨so2, hso2⟩ := get_of_len f2.sl hso
  have hs : s < lens.length := by
    have := (List.getElem?_eq_some_iff.1 hms).1
    rw [hm.len] at this; exact this
  have h5 := (f4 s r fa so2 so ms k q hfa hso2 hso hms hk hq).1 ((ho (r, s)).2 ⟨hq.1, hs⟩)
  obtain ⟨e3, e4⟩ := hp2.fa r fa hfa
  obtain ⟨e5, e6⟩ := locRow_lt hq _ e4
  have hks : k < so.size := by
    have := (List.getElem?_eq_some_iff.1 hk).1; omega
  obtain ⟨g1, _⟩ := Flat.rowOf_eq hnp e1 k hks
  have hrow := (rowOf_get e1.inv k hks)
  have hrowf := rowOf_get e3 _ e5
  rw [← g1] at h5
  have hrowf1 : (rowsOf ty fa)[locRow lens r q]? = some (rowOf ty so k) := by rw [h5]; exact hrowf.1
  have := read_of_row_eq e1.inv e3 k (locRow lens r q) _ hrow.1 hrowf1
  rw [ownRow, ← e6]
  exact ⟨⟨_, hrow.2, by rw [h5]; exact hrowf.2⟩, this.2⟩

/-- the three-rank array with row 3 no longer empty -/
def demoWorldB : World Nat :=
  ⟨[⟨none, none, [], [[10], [11, 12]], 2, 0⟩, Arr.Array.empty, ⟨none, none, [], [[20], [21], [22, 23]], 3, 0⟩],
   [Arr.Array.empty, Arr.Array.empty, Arr.Array.empty]⟩

theorem demo_setupB : Setup 0 ⟨-2, -2⟩ [2, 0, 3] demoWorldB := by
  have hl : Ty.layout ⟨-2, -2⟩ = .csr := by decide
  have r2 : Reachable 0 ⟨-2, -2⟩ (⟨none, none, [], [[20], [21], [22, 23]], 3, 0⟩ : Arr.Array Nat) := by
    refine ⟨[.resize1 true 3, .resizeRow 0 1, .resizeRow 1 1, .resizeRow 2 2, .write 0 0 20, .write 1 0 21,
      .write 2 0 22, .write 2 1 23], rfl, ?_⟩
    refine ⟨fun _ _ => by simp [Usable, hl, Arr.Array.empty], fun a h => ?_⟩
    cases h
    refine ⟨fun _ _ => by simp [Usable, int32Max], fun a h => ?_⟩
    cases h
    refine ⟨fun _ _ => by simp [Usable, int32Max], fun a h => ?_⟩
    cases h
    refine ⟨fun _ _ => by simp [Usable, int32Max], fun a h => ?_⟩
    cases h
    exact ⟨fun _ _ => by simp [Usable], fun a h => ⟨fun _ _ => by simp [Usable], fun a h =>
      ⟨fun _ _ => by simp [Usable], fun a h => ⟨fun _ _ => by simp [Usable], fun a h => trivial⟩⟩⟩⟩
  refine ⟨by decide, rfl, rfl, ?_, demo_setup.son, fun h => absurd hl h⟩
  intro r fa h
  match r with
  | 0 => cases h; exact demo_setup.father 0 _ rfl
  | 1 => cases h; exact ⟨empty_reachable _ _, rfl⟩
  | 2 => cases h; exact ⟨r2, rfl⟩

example : ∃ w1 locs w2, createInSitu 0 ⟨-2, -2⟩ true demoMaps demoWorldB = .ok (w1, locs) ∧
    pullInSitu ⟨-2, -2⟩ demoMaps locs w1 (allPairs 3) = .ok w2 ∧
    w2.sons.map (rowsOf ⟨-2, -2⟩) = [[[20], [22, 23]], [], [[10], [21]]] := by
  refine ⟨_, _, _, rfl, rfl, by decide⟩

-- it meets the hypotheses of the theorem
example : ∃ w1 locs w3, createInSitu 0 ⟨-2, -2⟩ true demoMaps demoWorldB = .ok (w1, locs) ∧
    pullInSitu ⟨-2, -2⟩ demoMaps locs w1 (allPairs 3) = .ok w3 := by
  obtain ⟨w1, locs, h1, h2, h3⟩ := inSitu_pull_partial true (Or.inl (by decide)) demo_searches.1 demoReqs rfl
    demoMaps demo_maps demoWorldB demo_setupB (allPairs 3) (allPairs_all 3)
  have hel : OnlyElements 0 ⟨-2, -2⟩ w1 w1 := by
    refine ⟨rfl, rfl, ?_⟩
    intro r f1 f2 e1 e2
    rw [e1] at e2; cases e2
    exact ⟨(demo_setupB.father r f1 (by rw [← h2]; exact e1)).1, rfl, fun _ _ => rfl⟩
  obtain ⟨w3, h4, _⟩ := h3 w1 hel (by
    rw [h2]
    intro s r req q hs hq ho
    have hq' : (r = 0 ∧ s = 2 ∧ req = [0, 3] ∧ q = 0) ∨ (r = 2 ∧ s = 0 ∧ req = [4, 2, 4]) ∨
        (r = 2 ∧ s = 2 ∧ req = [0, 3] ∧ q = 3) := by
      obtain ⟨o1, o2, o3⟩ := ho
      match s, hs with
      | 0, rfl =>
        match r with
        | 0 => simp [before] at hq o2 o3; omega
        | 1 => simp [before] at hq o2 o3; omega
        | 2 => simp
        | r + 3 => simp at o1; omega
      | 1, rfl => simp at hq
      | 2, rfl =>
        match r with
        | 0 => simp [before] at hq o2 o3 ⊢; omega
        | 1 => simp [before] at hq o2 o3; omega
        | 2 => simp [before] at hq o2 o3 ⊢; omega
        | r + 3 => simp at o1; omega
    rcases hq' with ⟨rfl, rfl, rfl, rfl⟩ | ⟨rfl, rfl, rfl⟩ | ⟨rfl, rfl, rfl, rfl⟩
    · exact ⟨0, _, 1, by simp, ho, rfl, rfl, by decide⟩
    · exact ⟨4, _, 2, by simp, ⟨by decide, by decide, by decide⟩, rfl, rfl, by decide⟩
    · exact ⟨3, _, 1, by simp, ho, rfl, rfl, by decide⟩)
  exact ⟨w1, locs, w3, h1, h4⟩

/-- A pair of ranks that exchanges only empty rows: the sender posts a message the receiver never
posts a receive for, or the other way round, and the in-situ pull does not return (the model's `ub`),
where the derived-datatype pull delivers.  In `demoWorld` rank 2 asks for its own empty row 3. -/
theorem inSitu_empty_rows_hang : ∃ w1 locs w1' types w2,
    createInSitu 0 ⟨-2, -2⟩ true demoMaps demoWorld = .ok (w1, locs) ∧
    pullInSitu ⟨-2, -2⟩ demoMaps locs w1 (allPairs 3) = .ub ∧
    createTypes 0 ⟨-2, -2⟩ true demoMaps demoWorld = .ok (w1', types) ∧
    pull types w1' (allPairs 3) = .ok w2 :=
  ⟨_, _, _, _, _, rfl, rfl, rfl, rfl⟩

/-- capacity 2, rows `[[10], [11, 12]]`, none, `[[20], [21], [22, 23]]` -/
def demoMaxWorld : World Nat :=
  ⟨[⟨none, some [1, 2], [10, 0, 11, 12], [], 2, 2⟩, ⟨none, some [], [], [], 0, 2⟩,
    ⟨none, some [1, 1, 2], [20, 0, 21, 0, 22, 23], [], 3, 2⟩],
   [Arr.Array.empty, Arr.Array.empty, Arr.Array.empty]⟩

theorem demoMax_setup : Setup 0 ⟨-2, -1⟩ [2, 0, 3] demoMaxWorld := by
  have hl : Ty.layout ⟨-2, -1⟩ = .max := by decide
  have emp : ∀ {n : Nat} (v : Val Nat), Represents ⟨-2, -1⟩ Arr.Array.empty v →
      Usable ⟨-2, -1⟩ Arr.Array.empty v (.resize2 true n 2) := by
    intro n v hv
    have h0 : v.rows = [] := List.length_eq_zero_iff.1 hv.size.symm
    simp [Usable, hl, h0]
  have r0 : Reachable 0 ⟨-2, -1⟩ (⟨none, some [1, 2], [10, 0, 11, 12], [], 2, 2⟩ : Arr.Array Nat) := by
    refine ⟨[.resize2 true 2 2, .resizeRow 0 1, .resizeRow 1 2, .write 0 0 10, .write 1 0 11, .write 1 1 12], rfl, ?_⟩
    refine ⟨fun _ hv => emp _ hv, fun a h => ⟨fun _ _ => by simp [Usable, int32Max], fun a h =>
      ⟨fun _ _ => by simp [Usable, int32Max], fun a h => ⟨fun _ _ => by simp [Usable], fun a h =>
      ⟨fun _ _ => by simp [Usable], fun a h => ⟨fun _ _ => by simp [Usable], fun a h => trivial⟩⟩⟩⟩⟩⟩
  have r1 : Reachable 0 ⟨-2, -1⟩ (⟨none, some [], [], [], 0, 2⟩ : Arr.Array Nat) :=
    ⟨[.resize2 true 0 2], rfl, fun _ _ => by simp [Usable, hl], fun a h => trivial⟩
  have r2 : Reachable 0 ⟨-2, -1⟩ (⟨none, some [1, 1, 2], [20, 0, 21, 0, 22, 23], [], 3, 2⟩ : Arr.Array Nat) := by
    refine ⟨[.resize2 true 3 2, .resizeRow 0 1, .resizeRow 1 1, .resizeRow 2 2, .write 0 0 20, .write 1 0 21,
      .write 2 0 22, .write 2 1 23], rfl, ?_⟩
    refine ⟨fun _ hv => emp _ hv, fun a h => ⟨fun _ _ => by simp [Usable, int32Max], fun a h =>
      ⟨fun _ _ => by simp [Usable, int32Max], fun a h => ⟨fun _ _ => by simp [Usable, int32Max], fun a h =>
      ⟨fun _ _ => by simp [Usable], fun a h => ⟨fun _ _ => by simp [Usable], fun a h =>
      ⟨fun _ _ => by simp [Usable], fun a h => ⟨fun _ _ => by simp [Usable], fun a h => trivial⟩⟩⟩⟩⟩⟩⟩⟩
  refine ⟨by decide, rfl, rfl, ?_, demo_setup_sons, ?_⟩
  · intro r fa h
    match r with
    | 0 => cases h; exact ⟨r0, rfl⟩
    | 1 => cases h; exact ⟨r1, rfl⟩
    | 2 => cases h; exact ⟨r2, rfl⟩
  · intro _ r s fr fs h1 h2
    match r, s with
    | 0, 0 => cases h1; cases h2; rfl
    | 0, 1 => cases h1; cases h2; rfl
    | 0, 2 => cases h1; cases h2; rfl
    | 1, 0 => cases h1; cases h2; rfl
    | 1, 1 => cases h1; cases h2; rfl
    | 1, 2 => cases h1; cases h2; rfl
    | 2, 0 => cases h1; cases h2; rfl
    | 2, 1 => cases h1; cases h2; rfl
    | 2, 2 => cases h1; cases h2; rfl
where
  demo_setup_sons : ∀ (s : Nat) (so : Arr.Array Nat), demoMaxWorld.sons[s]? = some so → Reachable 0 ⟨-2, -1⟩ so := by
    intro r so h
    match r with
    | 0 => cases h; exact empty_reachable _ _
    | 1 => cases h; exact empty_reachable _ _
    | 2 => cases h; exact empty_reachable _ _

/-- In a padded layout in-situ packing puts the rows next to each other, while the ghost rows are a
capacity apart: rank 0 should see `[[20], [22, 23]]` and gets `[[20], [23, 0]]`.  The derived-datatype
pull of the same world is right. -/
theorem inSitu_max_misplaced : ∃ w1 locs w2 w1' types w2',
    createInSitu 0 ⟨-2, -1⟩ true demoMaps demoMaxWorld = .ok (w1, locs) ∧
    pullInSitu ⟨-2, -1⟩ demoMaps locs w1 (allPairs 3) = .ok w2 ∧
    w2.sons[0]?.map (rowsOf ⟨-2, -1⟩) = some [[20], [23, 0]] ∧
    createTypes 0 ⟨-2, -1⟩ true demoMaps demoMaxWorld = .ok (w1', types) ∧
    pull types w1' (allPairs 3) = .ok w2' ∧
    w2'.sons[0]?.map (rowsOf ⟨-2, -1⟩) = some [[20], [22, 23]] :=
  ⟨_, _, _, _, _, _, rfl, rfl, by decide, rfl, rfl, by decide⟩

/-- `pushOnce` with in-situ packing aborts on every rank, whatever there is to receive. -/
theorem inSitu_pushOnce_aborts (sizes : List Nat) (h : sizes ≠ []) : pushOnceInSituControl sizes = .abort := by
  have h0 : unpackLoop 0 sizes = .abort := by
    cases sizes with
    | nil => exact absurd rfl h
    | cons n ns => rfl
  have h1 : ∀ (ns : List Nat) (k : Nat), unpackLoop k ns = .abort ∨ ∃ m, unpackLoop k ns = .ok m := by
    intro ns
    induction ns with
    | nil => intro k; exact Or.inr ⟨k, rfl⟩
    | cons n ns ih =>
      intro k
      by_cases hk : k > 0
      · rw [unpackLoop, Res.assert_true _ hk, Res.ok_bind]
        exact ih _
      · rw [unpackLoop, (Res.assert_abort_iff _).2 hk, Res.abort_bind]; exact Or.inl rfl
  rw [pushOnceInSituControl]
  rcases h1 sizes (sizes.countP (fun n => decide (n > 0))) with h2 | ⟨m, h2⟩
  · rw [h2, Res.abort_bind]
  · rw [h2, Res.ok_bind, h0]

end DNDSR.Tran
