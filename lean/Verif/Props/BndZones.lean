import Verif.Spec.BndZones
import Verif.Proof.IndexMapping
import Mathlib.Data.List.Forall2
import Mathlib.Tactic.NormNum
import Mathlib.Tactic.Tauto

/-!
# C97: zones are as the configuration says, and are written back
-/

namespace DNDSR.Zones

open DNDSR.IMap

variable {K : Type}

theorem lookup_of_mem {α β : Type} [BEq α] [LawfulBEq α] : ∀ {l : List (α × β)} {k : α} {v : β}, (l.map Prod.fst).Nodup → (k, v) ∈ l → l.lookup k = some v
  | [], _, _, _, h => by simp at h
  | (a, b) :: l, k, v, hn, h => by
    rw [List.map_cons, List.nodup_cons] at hn
    rw [List.lookup_cons]
    rcases List.mem_cons.1 h with h | h'
    · cases h; simp
    · have : (k == a) = false := by
        rw [beq_eq_false_iff_ne]
        rintro rfl
        exact hn.1 (List.mem_map.2 ⟨(k, v), h', rfl⟩)
      rw [this]
      exact lookup_of_mem hn.2 h'

theorem lookup_none {α β : Type} [BEq α] [LawfulBEq α] : ∀ {l : List (α × β)} {k : α}, (∀ v, (k, v) ∉ l) → l.lookup k = none
  | [], _, _ => rfl
  | (a, b) :: l, k, h => by
    rw [List.lookup_cons]
    have : (k == a) = false := by
      rw [beq_eq_false_iff_ne]
      rintro rfl
      exact h b (by simp)
    rw [this]
    exact lookup_none fun v hv => h v (by simp [hv])

theorem lookup_some {α β : Type} [BEq α] [LawfulBEq α] : ∀ {l : List (α × β)} {k : α} {v : β}, (k, v) ∈ l → l.lookup k ≠ none
  | (a, b) :: l, k, v, h => by
    rw [List.lookup_cons]
    rcases List.mem_cons.1 h with h | h
    · cases h; simp
    · split
      · simp
      · exact lookup_some h

/-- the flags kept for a zone -/
def flagsOf (z : Zone K) : Flags :=
  match z.kind with
  | .far | .out | .outP | .inn | .inPsTs => [("integrationOpt", z.integ), ("anchorOpt", z.anchor), ("frameOpt", z.frame)]
  | .wall | .wallInvis | .special => [("specialOpt", z.special), ("integrationOpt", z.integ), ("frameOpt", z.frame)]
  | .sym => [("integrationOpt", z.integ), ("rectifyOpt", z.rectify)]
  | .unknown => []

theorem numOpt_of {o : Obj K} {key : String} {v : Nat} (h : Num o key v) : numOpt o key = .ok v := by
  unfold numOpt
  rcases h with ⟨h, rfl⟩ | ⟨h, h'⟩
  · rw [h]
  · rw [h]
    simp only [Nat.mod_eq_of_lt h']

theorem vecOpt_of {o : Obj K} {key : String} {v : List K} (h : Vec o key v) : vecOpt o key = .ok v := by
  unfold vecOpt
  rcases h with ⟨h, rfl⟩ | h <;> rw [h]

theorem kindOf_word (k : Kind) (h : k ≠ .unknown) : kindOf (J.str k.word : J K) = k := by
  cases k <;> first | exact absurd rfl h | rfl

theorem kindTo_word (k : Kind) (h : k ≠ .unknown) : (kindTo k : J K) = .str k.word := by
  cases k <;> first | exact absurd rfl h | rfl

theorem readBody_spec [Zero K] {nVars : Nat} {o : Obj K} {z : Zone K} (h : Describes nVars o z) :
    readBody nVars o z.kind = .ok (flagsOf z, z.value, z.extra) := by
  obtain ⟨hk, -, -, he, hi, hv, hf, ha, hs, hr⟩ := h
  unfold flagsOf
  cases hz : z.kind <;> rw [hz] at hk hv hf ha hs hr <;> simp only [Kind.open, Kind.solid, reduceCtorEq, if_true, if_false, ne_eq, not_true_eq_false] at hk hv hf ha hs hr <;>
    simp only [readBody]
  all_goals first
    | rw [numOpt_of hf, Res.ok_bind, numOpt_of ha, Res.ok_bind, numOpt_of hi, Res.ok_bind, vecOpt_of he, Res.ok_bind,
        show vecReq o "value" = .ok z.value by unfold vecReq; rw [hv.1], Res.ok_bind, Res.assert_true _ hv.2, Res.ok_bind]
    | rw [numOpt_of hf, Res.ok_bind, numOpt_of hi, Res.ok_bind, vecOpt_of he, Res.ok_bind, numOpt_of hs, Res.ok_bind, hv]
    | rw [numOpt_of hr, Res.ok_bind, numOpt_of hi, Res.ok_bind, vecOpt_of he, Res.ok_bind, hv]

/-- the handler with the zones `zs` -/
def built (nVars : Nat) (u : List K) (zs : List (Zone K)) : Handler K where
  nVars := nVars
  values := (Handler.new nVars u).values ++ zs.map Zone.value
  types := (Handler.new nVars u).types ++ zs.map Zone.kind
  flags := (Handler.new nVars u).flags ++ zs.map flagsOf
  extras := (Handler.new nVars u).extras ++ zs.map Zone.extra
  name2ID := (zs.mapIdx fun k z => (z.name, ((20 + k : Nat) : Int))).reverse ++ defaultNames

theorem new_lengths (nVars : Nat) (u : List K) : (Handler.new nVars u).values.length = 20 ∧ (Handler.new nVars u).types.length = 20 ∧
    (Handler.new nVars u).flags.length = 20 ∧ (Handler.new nVars u).extras.length = 20 :=
  ⟨List.length_replicate, rfl, List.length_replicate, List.length_replicate⟩

theorem built_nil (nVars : Nat) (u : List K) : built nVars u [] = Handler.new nVars u := by
  simp [built, Handler.new]

theorem push_spec [Zero K] {nVars : Nat} {u : List K} {zs : List (Zone K)} {o : Obj K} {z : Zone K} (h : Describes nVars o z)
    (hn : (built nVars u zs).name2ID.lookup z.name = none) : (built nVars u zs).push o = .ok (built nVars u (zs ++ [z])) := by
  obtain ⟨l1, l2, l3, l4⟩ := new_lengths nVars u
  unfold Handler.push
  rw [show kindReq o = .ok z.kind by unfold kindReq; rw [h.type]; simp only [kindOf_word _ h.known], Res.ok_bind,
    show strReq o "name" = .ok z.name by unfold strReq; rw [h.name], Res.ok_bind, show (built nVars u zs).nVars = nVars from rfl, readBody_spec h, Res.ok_bind]
  simp only
  rw [Res.assert_true _ hn, Res.ok_bind, Res.assert_true _ (by simp [built, l1, l2, l3, l4]), Res.ok_bind]
  congr 1
  simp only [built, List.map_append, List.map_singleton, List.append_assoc, List.mapIdx_append, List.reverse_append, List.mapIdx_cons, List.mapIdx_nil, List.reverse_cons,
    List.reverse_nil, List.nil_append, List.length_append, List.length_map, l2, List.singleton_append, List.cons_append, List.length_singleton]
  congr 3
  push_cast
  omega

theorem mem_names {nVars : Nat} {u : List K} {zs : List (Zone K)} {p : String × Int} :
    p ∈ (built nVars u zs).name2ID ↔ (∃ k z, zs[k]? = some z ∧ p = (z.name, ((20 + k : Nat) : Int))) ∨ p ∈ defaultNames := by
  unfold built
  simp only [List.mem_append, List.mem_reverse, List.mem_mapIdx]
  constructor
  · rintro (⟨k, hk, h⟩ | h)
    · exact .inl ⟨k, _, List.getElem?_eq_getElem hk, h.symm⟩
    · exact .inr h
  · rintro (⟨k, z, hz, h⟩ | h)
    · obtain ⟨hk, rfl⟩ := List.getElem?_eq_some_iff.1 hz
      exact .inl ⟨k, hk, h.symm⟩
    · exact .inr h

theorem keys_nodup {nVars : Nat} {u : List K} {zs : List (Zone K)} (h : Named zs) : ((built nVars u zs).name2ID.map Prod.fst).Nodup := by
  unfold built
  simp only [List.map_append, List.map_reverse]
  rw [List.nodup_append]
  have e : (zs.mapIdx fun k z => (z.name, ((20 + k : Nat) : Int))).map Prod.fst = zs.map Zone.name := by
    refine List.ext_getElem (by simp) fun i h1 h2 => ?_
    simp
  rw [e]
  refine ⟨(List.reverse_perm _).nodup_iff.2 h.distinct, by decide, ?_⟩
  intro a ha b hb hab
  subst hab
  rw [List.mem_reverse] at ha
  obtain ⟨z, hz, rfl⟩ := List.mem_map.1 ha
  obtain ⟨p, hp, hp'⟩ := List.mem_map.1 hb
  exact h.own z hz p.2 (by rw [← hp']; exact hp)

theorem read_built [Zero K] {nVars : Nat} {u : List K} : ∀ {os : List (Obj K)} {zs2 zs : List (Zone K)}, List.Forall₂ (Describes nVars) os zs2 → Named (zs ++ zs2) →
    (built nVars u zs).read os = .ok (built nVars u (zs ++ zs2))
  | [], _, zs, .nil, _ => by simp [Handler.read]
  | o :: os, z :: zs2, zs, .cons h1 h2, hn => by
    have e : zs ++ z :: zs2 = zs ++ [z] ++ zs2 := by simp
    unfold Handler.read
    rw [push_spec h1 (lookup_none fun v hv => ?_), Res.ok_bind, read_built h2 (by rw [← e]; exact hn), ← e]
    rcases mem_names.1 hv with ⟨k, z', hz', hp⟩ | hd
    · have hd := hn.distinct
      rw [List.map_append, List.nodup_append] at hd
      exact hd.2.2 z.name (List.mem_map.2 ⟨z', List.mem_of_getElem? hz', (congrArg Prod.fst hp).symm⟩) z.name (by simp) rfl
    · exact hn.own z (by simp) v hd

theorem nameOf_of {ord l : List (String × Int)} (hp : ord.Perm l) {name : String} {id : Int} (hm : (name, id) ∈ l) (hu : ∀ p ∈ l, p.2 = id → p.1 = name) :
    nameOf ord id = some name := by
  unfold nameOf
  cases hf : ord.reverse.find? fun p => p.2 == id with
  | none =>
    rw [List.find?_eq_none] at hf
    have := hf (name, id) (by rw [List.mem_reverse]; exact hp.mem_iff.2 hm)
    simp at this
  | some p =>
    have h1 := List.find?_some hf
    have h2 := List.mem_of_find?_eq_some hf
    rw [List.mem_reverse] at h2
    rw [Option.map_some, hu p (hp.mem_iff.1 h2) (by simpa using h1)]

theorem nameOf_built {nVars : Nat} {u : List K} {zs : List (Zone K)} {ord : List (String × Int)} (hp : ord.Perm (built nVars u zs).name2ID) {k : Nat} {z : Zone K}
    (hz : zs[k]? = some z) : nameOf ord ((20 + k : Nat) : Int) = some z.name := by
  refine nameOf_of hp (mem_names.2 (.inl ⟨k, z, hz, rfl⟩)) fun p hm hid => ?_
  rcases mem_names.1 hm with ⟨k', z', hz', rfl⟩ | hd
  · simp only at hid
    have : k' = k := by omega
    subst this
    rw [hz] at hz'
    cases hz'
    rfl
  · have : ∀ q ∈ defaultNames, q.2 < 20 := by decide
    have := this p hd
    omega

theorem at_built {α : Type} {a b : List α} (ha : a.length = 20) {k : Nat} {x : α} (hx : b[k]? = some x) : (a ++ b)[20 + k]? = some x := by
  rw [List.getElem?_append_right (by omega), ha, Nat.add_sub_cancel_left, hx]

/-- what the flags of a described zone are -/
theorem flags_lookup [Zero K] {nVars : Nat} {o : Obj K} {z : Zone K} (h : Describes nVars o z) :
    ((flagsOf z).lookup "frameOpt").getD 0 = z.frame ∧ ((flagsOf z).lookup "anchorOpt").getD 0 = z.anchor ∧
    ((flagsOf z).lookup "integrationOpt").getD 0 = z.integ ∧ ((flagsOf z).lookup "specialOpt").getD 0 = z.special ∧
    ((flagsOf z).lookup "rectifyOpt").getD 0 = z.rectify ∧ (z.kind ≠ .sym → (flagsOf z).lookup "frameOpt" = some z.frame) ∧
    (z.kind.open → (flagsOf z).lookup "anchorOpt" = some z.anchor) ∧ (z.kind.solid → (flagsOf z).lookup "specialOpt" = some z.special) ∧
    (z.kind = .sym → (flagsOf z).lookup "rectifyOpt" = some z.rectify) := by
  obtain ⟨hk, -, -, -, -, -, hf, ha, hs, hr⟩ := h
  unfold flagsOf
  cases hz : z.kind <;> rw [hz] at hk hf ha hs hr <;> simp only [Kind.open, Kind.solid, reduceCtorEq, if_true, if_false, ne_eq, not_true_eq_false] at hk hf ha hs hr <;>
    simp [List.lookup, Kind.open, Kind.solid, hf, ha, hs, hr]

theorem holds_built [Zero K] {nVars : Nat} {u : List K} {zs : List (Zone K)} (hn : Named zs) {ord : List (String × Int)} (hp : ord.Perm (built nVars u zs).name2ID)
    {k : Nat} {z : Zone K} (hz : zs[k]? = some z) {o : Obj K} (hd : Describes nVars o z) : Holds (built nVars u zs) ord (20 + k) z := by
  obtain ⟨l1, l2, l3, l4⟩ := new_lengths nVars u
  have hpos : ¬ ¬ (0 : Int) < ((20 + k : Nat) : Int) := by push_cast; omega
  have hnat : (((20 + k : Nat) : Int)).toNat = 20 + k := by omega
  have ht : (built nVars u zs).types[20 + k]? = some z.kind := at_built l2 (by rw [List.getElem?_map, hz]; rfl)
  have hv : (built nVars u zs).values[20 + k]? = some z.value := at_built l1 (by rw [List.getElem?_map, hz]; rfl)
  have hf : (built nVars u zs).flags[20 + k]? = some (flagsOf z) := at_built l3 (by rw [List.getElem?_map, hz]; rfl)
  have he : (built nVars u zs).extras[20 + k]? = some z.extra := at_built l4 (by rw [List.getElem?_map, hz]; rfl)
  obtain ⟨f1, f2, f3, f4, f5, f6, f7, f8, f9⟩ := flags_lookup hd
  refine ⟨?_, ?_, ?_, ?_, ?_, ?_, ?_, ?_, ?_, ?_, ?_, ?_, ?_, ?_⟩
  · unfold Handler.idOf
    rw [lookup_of_mem (keys_nodup hn) (mem_names.2 (.inl ⟨k, z, hz, rfl⟩))]
    rfl
  · unfold Handler.nameOf
    rw [nameOf_built hp hz]
    rfl
  · unfold Handler.typeOf; rw [if_neg hpos, hnat, vAt, ht]
  · unfold Handler.valueOf; rw [if_neg hpos, hnat, vAt, hv]
  · unfold Handler.extraOf; rw [if_neg hpos, hnat, vAt, he]
  · unfold Handler.flagSoft; simp only [if_neg hpos, hnat, hf, f1]
  · unfold Handler.flagSoft; simp only [if_neg hpos, hnat, hf, f2]
  · unfold Handler.flagSoft; simp only [if_neg hpos, hnat, hf, f3]
  · unfold Handler.flagSoft; simp only [if_neg hpos, hnat, hf, f4]
  · unfold Handler.flagSoft; simp only [if_neg hpos, hnat, hf, f5]
  · intro h; unfold Handler.flagOf; simp only [if_neg hpos, hnat, flagAt, hf, f6 h]
  · intro h; unfold Handler.flagOf; simp only [if_neg hpos, hnat, flagAt, hf, f7 h]
  · intro h; unfold Handler.flagOf; simp only [if_neg hpos, hnat, flagAt, hf, f8 h]
  · intro h; unfold Handler.flagOf; simp only [if_neg hpos, hnat, flagAt, hf, f9 h]

/-- **C97** (reading)  A list of objects that describe zones with names of their own is read.  The zones get the numbers from 20 on, in the order
of the list, and every question about them, by name or by number, is answered as the list says, in whatever order the map of names is gone
through.  The default names keep their numbers, and names that are in neither have the number 1, which stands for no zone. -/
theorem read_zones [Zero K] {nVars : Nat} {u : List K} {os : List (Obj K)} {zs : List (Zone K)} (h : List.Forall₂ (Describes nVars) os zs) (hn : Named zs) :
    ∃ H, (Handler.new nVars u).read os = .ok H ∧ H.types.length = 20 + zs.length ∧
      (∀ ord, ord.Perm H.name2ID → ∀ k z, zs[k]? = some z → Holds H ord (20 + k) z) ∧ (∀ name id, (name, id) ∈ defaultNames → H.idOf name = id) ∧
      ∀ name, (∀ z ∈ zs, z.name ≠ name) → (∀ id, (name, id) ∉ defaultNames) → H.idOf name = 1 := by
  refine ⟨built nVars u zs, ?_, ?_, ?_, ?_, ?_⟩
  · have := read_built (u := u) (zs := []) h (by simpa using hn)
    rw [built_nil] at this
    simpa using this
  · unfold built
    rw [List.length_append, List.length_map, (new_lengths nVars u).2.1]
  · intro ord hp k z hz
    have hl := h.length_eq
    have hk : k < os.length := by rw [hl]; exact (List.getElem?_eq_some_iff.1 hz).1
    have hd : Describes nVars os[k] z := by
      obtain ⟨hk', rfl⟩ := List.getElem?_eq_some_iff.1 hz
      exact List.forall₂_iff_get.1 h |>.2 k hk hk'
    exact holds_built hn hp hz hd
  · intro name id hm
    unfold Handler.idOf
    rw [lookup_of_mem (keys_nodup hn) (mem_names.2 (.inr hm))]
    rfl
  · intro name h1 h2
    unfold Handler.idOf
    rw [lookup_none fun v hv => ?_]
    · rfl
    · rcases mem_names.1 hv with ⟨k, z, hz, hp⟩ | hd
      · exact h1 z (List.mem_of_getElem? hz) (congrArg Prod.fst hp).symm
      · exact h2 v hd

/-- **C97** (types)  A zone whose type is not one of the nine words is refused, whatever comes before and after it. -/
theorem unknown_type_refused [Zero K] {o : Obj K} {j : J K} (ht : o.lookup "type" = some j) (hj : ∀ k : Kind, k ≠ .unknown → j ≠ .str k.word) (rest : List (Obj K)) :
    ∀ (os : List (Obj K)) (h H : Handler K), h.read (os ++ o :: rest) ≠ .ok H := by
  have hk : kindOf j = .unknown := by
    cases j with
    | str s =>
      have : (kindNames.find? fun p => p.2 == s) = none := by
        rw [List.find?_eq_none]
        intro p hp he
        have he := beq_iff_eq.1 he
        have hw : ∀ p ∈ kindNames, p.1 ≠ .unknown ∧ p.1.word = p.2 := by decide
        exact hj p.1 (hw p hp).1 (by rw [(hw p hp).2, he])
      simp only [kindOf, this]
      rfl
    | _ => rfl
  intro os
  induction os with
  | nil =>
    intro h H hr
    rw [List.nil_append, Handler.read] at hr
    obtain ⟨H', h1, -⟩ := (Res.bind_ok_iff _ _ _).1 hr
    unfold Handler.push at h1
    rw [show kindReq o = .ok .unknown by unfold kindReq; rw [ht]; simp only [hk], Res.ok_bind] at h1
    obtain ⟨_, _, h1⟩ := (Res.bind_ok_iff _ _ _).1 h1
    obtain ⟨_, h1, _⟩ := (Res.bind_ok_iff _ _ _).1 h1
    cases h1
  | cons o' os ih =>
    intro h H hr
    rw [List.cons_append, Handler.read] at hr
    obtain ⟨H', _, h2⟩ := (Res.bind_ok_iff _ _ _).1 hr
    exact ih H' H h2

example : ∀ k : Kind, k ≠ .unknown → (J.str "BCPorous" : J ℚ) ≠ .str k.word := by
  intro k _ h
  cases k <;> simp [Kind.word] at h

/-- **C97** (names)  A zone with the name of an earlier one, or with a default name, makes reading fail. -/
theorem duplicate_aborts [Zero K] {nVars : Nat} {u : List K} {os : List (Obj K)} {o : Obj K} {zs : List (Zone K)} {z : Zone K} (rest : List (Obj K))
    (h : List.Forall₂ (Describes nVars) os zs) (hn : Named zs) (hd : Describes nVars o z) (hz : (∃ z' ∈ zs, z'.name = z.name) ∨ ∃ id, (z.name, id) ∈ defaultNames) :
    (Handler.new nVars u).read (os ++ o :: rest) = .abort := by
  have key : ∀ (os : List (Obj K)) (zs2 zs : List (Zone K)), List.Forall₂ (Describes nVars) os zs2 → Named (zs ++ zs2) →
      (built nVars u zs).read (os ++ o :: rest) = (built nVars u (zs ++ zs2)).read (o :: rest) := by
    intro os
    induction os with
    | nil => intro zs2 zs h _; cases h; simp
    | cons o' os ih =>
      intro zs2 zs h hn
      cases h with
      | @cons _ z' _ zs2 h1 h2 =>
      have e : zs ++ z' :: zs2 = zs ++ [z'] ++ zs2 := by simp
      have := read_built (u := u) (List.Forall₂.cons h1 .nil) (show Named (zs ++ [z']) from by
        rw [e] at hn
        exact ⟨(by have := hn.distinct; rw [List.map_append, List.nodup_append] at this; exact this.1), fun z hz => hn.own z (by simp only [List.mem_append] at hz ⊢; tauto)⟩)
      unfold Handler.read at this
      rw [Res.bind_ok_iff] at this
      obtain ⟨H, a1, a2⟩ := this
      cases a2
      rw [List.cons_append, Handler.read, a1, Res.ok_bind, ih zs2 _ h2 (by rw [← e]; exact hn), ← e]
  have := key os zs [] h (by simpa using hn)
  rw [built_nil, List.nil_append] at this
  rw [this, Handler.read]
  have hne : (built nVars u zs).name2ID.lookup z.name ≠ none := by
    rcases hz with ⟨z', hz', hn'⟩ | ⟨id, hid⟩
    · obtain ⟨k, hk⟩ := List.mem_iff_getElem?.1 hz'
      exact lookup_some (mem_names.2 (.inl ⟨k, z', hk, by rw [← hn']⟩))
    · exact lookup_some (mem_names.2 (.inr hid))
  have hpush : (built nVars u zs).push o = .abort := by
    unfold Handler.push
    rw [show kindReq o = .ok z.kind by unfold kindReq; rw [hd.type]; simp only [kindOf_word _ hd.known], Res.ok_bind,
      show strReq o "name" = .ok z.name by unfold strReq; rw [hd.name], Res.ok_bind, show (built nVars u zs).nVars = nVars from rfl, readBody_spec hd, Res.ok_bind]
    simp only
    rw [Res.assert, if_neg hne]
    rfl
  rw [hpush]
  rfl

/-! ### writing -/

/-- the zone as it is written: the integration option is left out for open boundaries and symmetry planes -/
def Zone.written (z : Zone K) : Zone K :=
  match z.kind with
  | .wall | .wallInvis | .special => z
  | _ => { z with integ := 0 }

/-- the object written for zone number `id` -/
def itemOf (id : Nat) (z : Zone K) : Obj K :=
  [("type", .str z.kind.word), ("name", .str z.name), ("__bcId", .nat id)] ++
  match z.kind with
  | .far | .out | .outP | .inn | .inPsTs => [("value", .vec z.value), ("frameOption", .nat z.frame), ("anchorOption", .nat z.anchor), ("valueExtra", .vec z.extra)]
  | .wall | .wallInvis | .special =>
    [("frameOption", .nat z.frame), ("integrationOption", .nat z.integ), ("specialOption", .nat z.special), ("valueExtra", .vec z.extra)]
  | .sym => [("rectifyOption", .nat z.rectify), ("valueExtra", .vec z.extra)]
  | .unknown => []

theorem writeItem_built {nVars : Nat} {u : List K} {zs : List (Zone K)} {ord : List (String × Int)} (hp : ord.Perm (built nVars u zs).name2ID) {k : Nat} {z : Zone K}
    (hz : zs[k]? = some z) (hk : z.kind ≠ .unknown) : writeItem (built nVars u zs) ord (20 + k) = .ok (itemOf (20 + k) z) := by
  obtain ⟨l1, l2, l3, l4⟩ := new_lengths nVars u
  have ht : (built nVars u zs).types[20 + k]? = some z.kind := at_built l2 (by rw [List.getElem?_map, hz]; rfl)
  have hv : (built nVars u zs).values[20 + k]? = some z.value := at_built l1 (by rw [List.getElem?_map, hz]; rfl)
  have hf : (built nVars u zs).flags[20 + k]? = some (flagsOf z) := at_built l3 (by rw [List.getElem?_map, hz]; rfl)
  have he : (built nVars u zs).extras[20 + k]? = some z.extra := at_built l4 (by rw [List.getElem?_map, hz]; rfl)
  unfold writeItem
  rw [(idx_ok_iff _ _ _).2 ht, Res.ok_bind, nameOf_built hp hz]
  simp only [kindTo_word _ hk]
  unfold itemOf flagsOf at *
  cases hzk : z.kind <;> rw [hzk] at hf hk <;> simp only [ne_eq, not_true_eq_false] at hk <;>
    simp only [writeBody, vAt, flagAt, hv, hf, he, Res.ok_bind] <;> rfl

theorem num_of {o : Obj K} {key : String} {v : Nat} (h : o.lookup key = some (.nat v)) (hv : v < 2 ^ 32) : Num o key v := .inr ⟨h, hv⟩

theorem describes_item [Zero K] {nVars : Nat} {o : Obj K} {z : Zone K} (h : Describes nVars o z) (id : Nat) : Describes nVars (itemOf id z) z.written := by
  have lt : ∀ {key v}, Num o key v → v < 2 ^ 32 := by
    rintro key v (⟨-, rfl⟩ | ⟨-, h⟩)
    · norm_num
    · exact h
  obtain ⟨hk, -, -, he, hi, hv, hf, ha, hs, hr⟩ := h
  unfold itemOf Zone.written
  cases hz : z.kind <;> rw [hz] at hk hv hf ha hs hr <;> simp only [Kind.open, Kind.solid, reduceCtorEq, if_true, if_false, ne_eq, not_true_eq_false] at hk hv hf ha hs hr
  all_goals
    refine ⟨?_, ?_, ?_, ?_, ?_, ?_, ?_, ?_, ?_, ?_⟩ <;> simp only [hz, Kind.open, Kind.solid, reduceCtorEq, if_true, if_false, ne_eq, not_false_eq_true]
  all_goals first
    | rfl
    | exact .inr rfl
    | exact .inl ⟨rfl, rfl⟩
    | exact hv
    | exact ⟨rfl, hv.2⟩
    | exact num_of rfl (lt hf)
    | exact num_of rfl (lt ha)
    | exact num_of rfl (lt hi)
    | exact num_of rfl (lt hs)
    | exact num_of rfl (lt hr)
    | exact hf
    | exact ha
    | exact hs
    | exact hr

theorem write_built {nVars : Nat} {u : List K} {zs : List (Zone K)} {ord : List (String × Int)} (hp : ord.Perm (built nVars u zs).name2ID) (hk : ∀ z ∈ zs, z.kind ≠ .unknown) :
    (built nVars u zs).write ord = .ok (zs.mapIdx fun k z => itemOf (20 + k) z) := by
  have key : ∀ (m j : Nat), j + m = zs.length → writeFrom (built nVars u zs) ord (List.range' (20 + j) m) = .ok ((zs.mapIdx fun k z => itemOf (20 + k) z).drop j) := by
    intro m
    induction m with
    | zero => intro j hj; rw [List.drop_of_length_le (by simp; omega)]; rfl
    | succ m ih =>
      intro j hj
      have hjl : j < zs.length := by omega
      rw [List.range'_succ, writeFrom, writeItem_built hp (List.getElem?_eq_getElem hjl) (hk _ (List.getElem_mem hjl)), Res.ok_bind,
        show 20 + j + 1 = 20 + (j + 1) by omega, ih (j + 1) (by omega), Res.ok_bind, List.drop_eq_getElem_cons (i := j) (by simpa using hjl)]
      simp
  unfold Handler.write
  rw [show (built nVars u zs).types.length - defaultMax = zs.length by
    unfold built; rw [List.length_append, List.length_map, (new_lengths nVars u).2.1]; simp [defaultMax]]
  exact key zs.length 0 (by omega)

/-- **C97** (writing)  What was read is written as a list of objects that describe the same zones, except that the integration option of open
boundaries and symmetry planes is left out (`integration_lost`).  What is written is read again, and then written the same. -/
theorem write_read_partial [Zero K] {nVars : Nat} {u : List K} {os : List (Obj K)} {zs : List (Zone K)} (h : List.Forall₂ (Describes nVars) os zs) (hn : Named zs) :
    ∃ H, (Handler.new nVars u).read os = .ok H ∧ ∀ ord, ord.Perm H.name2ID →
      ∃ os', H.write ord = .ok os' ∧ List.Forall₂ (Describes nVars) os' (zs.map Zone.written) ∧ Named (zs.map Zone.written) ∧
        ∃ H', (Handler.new nVars u).read os' = .ok H' ∧ ∀ ord', ord'.Perm H'.name2ID → H'.write ord' = .ok os' := by
  have hk : ∀ z ∈ zs, z.kind ≠ .unknown := by
    intro z hz
    obtain ⟨k, hk, rfl⟩ := List.mem_iff_getElem.1 hz
    exact (List.forall₂_iff_get.1 h |>.2 k (by rw [h.length_eq]; exact hk) hk).known
  have hw : ∀ z : Zone K, z.written.name = z.name ∧ z.written.kind = z.kind := by
    intro z
    unfold Zone.written
    split <;> exact ⟨rfl, rfl⟩
  have hi : ∀ (id : Nat) (z : Zone K), itemOf id z.written = itemOf id z := by
    intro id z
    unfold itemOf Zone.written
    cases hz : z.kind <;> simp only [hz]
  have hn' : Named (zs.map Zone.written) := by
    constructor
    · rw [List.map_map, show Zone.name ∘ Zone.written = (Zone.name : Zone K → String) from funext fun z => (hw z).1]
      exact hn.distinct
    · intro z hz
      obtain ⟨z', hz', rfl⟩ := List.mem_map.1 hz
      rw [(hw z').1]
      exact hn.own z' hz'
  have hr := read_built (u := u) (zs := []) h (by simpa using hn)
  rw [built_nil, List.nil_append] at hr
  refine ⟨_, hr, fun ord hp => ⟨_, write_built hp hk, ?_, hn', ?_⟩⟩
  · rw [List.forall₂_iff_get]
    refine ⟨by simp, fun i h1 h2 => ?_⟩
    have hiz : i < zs.length := by simpa using h1
    simp only [List.get_eq_getElem, List.getElem_mapIdx, List.getElem_map]
    exact describes_item (List.forall₂_iff_get.1 h |>.2 i (by rw [h.length_eq]; exact hiz) hiz) _
  · have hd : List.Forall₂ (Describes nVars) (zs.mapIdx fun k z => itemOf (20 + k) z) (zs.map Zone.written) := by
      rw [List.forall₂_iff_get]
      refine ⟨by simp, fun i h1 h2 => ?_⟩
      have hiz : i < zs.length := by simpa using h1
      simp only [List.get_eq_getElem, List.getElem_mapIdx, List.getElem_map]
      exact describes_item (List.forall₂_iff_get.1 h |>.2 i (by rw [h.length_eq]; exact hiz) hiz) _
    have hr' := read_built (u := u) (zs := []) hd (by simpa using hn')
    rw [built_nil, List.nil_append] at hr'
    refine ⟨_, hr', fun ord' hp' => ?_⟩
    rw [write_built hp' (by
      intro z hz
      obtain ⟨z', hz', rfl⟩ := List.mem_map.1 hz
      rw [(hw z').2]
      exact hk z' hz')]
    congr 1
    refine List.ext_getElem (by simp) fun i h1 h2 => ?_
    simp [hi]

/-! ### A case -/

/-- an outlet and a wall, both with integration -/
def twoObjects : List (Obj Rat) :=
  [[("type", .str "BCOut"), ("name", .str "outlet"), ("value", .vec [1, 0, 0, 0, 5 / 2]), ("integrationOption", .nat 1)],
   [("name", .str "blade"), ("type", .str "BCWall"), ("frameOption", .nat 2), ("integrationOption", .nat 3), ("valueExtra", .vec [300])]]

/-- the zones -/
def twoZones : List (Zone Rat) :=
  [⟨.out, "outlet", [1, 0, 0, 0, 5 / 2], [], 0, 0, 1, 0, 0⟩, ⟨.wall, "blade", [0, 0, 0, 0, 0], [300], 2, 0, 3, 0, 0⟩]

theorem twoObjects_describe : List.Forall₂ (Describes 5) twoObjects twoZones := by
  refine .cons ⟨by decide, rfl, rfl, .inl ⟨rfl, rfl⟩, .inr ⟨rfl, by norm_num⟩, ⟨rfl, rfl⟩, .inl ⟨rfl, rfl⟩, .inl ⟨rfl, rfl⟩, rfl, rfl⟩
    (.cons ⟨by decide, rfl, rfl, .inr rfl, .inr ⟨rfl, by norm_num⟩, rfl, .inr ⟨rfl, by norm_num⟩, rfl, .inl ⟨rfl, rfl⟩, rfl⟩ .nil)

theorem twoZones_named : Named twoZones := by
  refine ⟨by decide, ?_⟩
  intro z hz id hm
  have : ∀ p ∈ defaultNames, p.1 ≠ "outlet" ∧ p.1 ≠ "blade" := by decide
  have h := this _ hm
  simp only [twoZones, List.mem_cons, List.not_mem_nil, or_false] at hz
  rcases hz with rfl | rfl
  · exact h.1 rfl
  · exact h.2 rfl

/-- the hypotheses of `read_zones` and `write_read_partial` are met -/
example : ∃ H, (Handler.new 5 []).read twoObjects = .ok H ∧ H.types.length = 22 ∧ H.idOf "blade" = 21 := by
  obtain ⟨H, h1, h2, h3, -⟩ := read_zones (u := []) twoObjects_describe twoZones_named
  exact ⟨H, h1, h2, (h3 _ (List.Perm.refl _) 1 _ rfl).number⟩

/-- the hypotheses of `duplicate_aborts` are met: the outlet is described twice -/
example : (Handler.new 5 []).read (twoObjects ++ twoObjects) = .abort := by
  have hd := List.forall₂_iff_get.1 twoObjects_describe |>.2 0 (by decide) (by decide)
  exact duplicate_aborts (o := twoObjects.get ⟨0, by decide⟩) _ twoObjects_describe twoZones_named hd (.inl ⟨_, List.mem_cons_self, rfl⟩)

/-- **C97** (what is missing)  The outlet is read with integration, and after it has been written and read again it has none. -/
theorem integration_lost : ∃ (o : Obj Rat) (z : Zone Rat) (H H' : Handler Rat), Describes 5 o z ∧ Named [z] ∧ (Handler.new 5 []).read [o] = .ok H ∧
    (∀ ord, ord.Perm H.name2ID → ∃ os', H.write ord = .ok os' ∧ (Handler.new 5 []).read os' = .ok H') ∧
    H.flagSoft (H.idOf "outlet") "integrationOpt" = .ok 1 ∧ H'.flagSoft (H'.idOf "outlet") "integrationOpt" = .ok 0 := by
  have hd := List.forall₂_iff_get.1 twoObjects_describe |>.2 0 (by decide) (by decide)
  have hn : Named [twoZones.get ⟨0, by decide⟩] := ⟨by decide, fun z hz => twoZones_named.own z (by
    rw [List.mem_singleton.1 hz]; exact List.getElem_mem _)⟩
  have hd1 : List.Forall₂ (Describes 5) [twoObjects.get ⟨0, by decide⟩] [twoZones.get ⟨0, by decide⟩] := .cons hd .nil
  have hr := read_built (u := []) (zs := []) hd1 (by simpa using hn)
  rw [built_nil, List.nil_append] at hr
  have hn2 : Named [(twoZones.get ⟨0, by decide⟩).written] := ⟨by decide, fun z hz => by
    rw [List.mem_singleton.1 hz]; exact hn.own (twoZones.get ⟨0, by decide⟩) (List.mem_singleton.2 rfl)⟩
  have hd2 := describes_item hd (20 + 0)
  have hr2 := read_built (u := []) (zs := []) (.cons hd2 .nil) (by simpa using hn2)
  rw [built_nil, List.nil_append] at hr2
  have a1 := holds_built (u := []) hn (List.Perm.refl _) (k := 0) rfl hd
  have a2 := holds_built (u := []) hn2 (List.Perm.refl _) (k := 0) rfl hd2
  refine ⟨_, _, _, _, hd, hn, hr, fun ord hp => ⟨_, write_built hp ?_, hr2⟩, ?_, ?_⟩
  · intro z hz
    rw [List.mem_singleton.1 hz]
    decide
  · have := a1.integ
    rw [← a1.number] at this
    exact this
  · have := a2.integ
    rw [← a2.number] at this
    exact this

end DNDSR.Zones
