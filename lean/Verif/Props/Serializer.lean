import Verif.Proof.SerPath
import Verif.Proof.SerData
import Verif.Proof.SerShared

/-!
# Properties C15, C17, C18, C19: serializers
-/

namespace DNDSR.Ser

open DNDSR.Defines

/-! ## C15 paths -/

/-- C15. Every path means exactly one location from wherever one stands. -/
theorem path_meaning (cur : Loc) (p : List Char) : ∃ l, Lands cur p l ∧ ∀ l', Lands cur p l' → l' = l := by
  obtain ⟨l, h⟩ := lands_exists cur p
  exact ⟨l, h, fun l' h' => h'.unique h⟩

/-- C15. After any history of path calls the reported path is the text of the location that history means,
and it splits back into the names of that location. -/
theorem path_history (s : JSt) (l : Loc) (h : History s l) :
    getCurrentPath s = render l ∧ splitSStringClean (getCurrentPath s) '/' = l ∧
    ∀ n ∈ l, n ≠ [] ∧ '/' ∉ n := by
  have hs := history_stands h
  refine ⟨hs.cP, ?_, hs.good⟩
  rw [getCurrentPath, hs.cP]
  exact splitClean_render l hs.good

/-- C15. Entering a path is accepted exactly when an object exists at the location it means; it moves there
and changes nothing in the document. -/
theorem path_go (s : JSt) (l l' : Loc) (p : List Char) (h : History s l) (hl : Lands l p l') :
    (l' ∈ s.objects → ∃ s', goToPath s p = .ok s' ∧ History s' l' ∧ getCurrentPath s' = render l' ∧
      s'.objects = s.objects) ∧
    (l' ∉ s.objects → goToPath s p = .abort) := by
  have hs := history_stands h
  have he := goToPath_eq hs hl
  constructor
  · intro hm
    rw [if_pos hm] at he
    exact ⟨_, he, .go p h he hl, rfl, rfl⟩
  · intro hm
    rw [if_neg hm] at he
    exact he

/-- C15. Creating a path makes objects of its location and of all locations above it, empties it, and leaves
everything not below it as it was; the current location does not change. -/
theorem path_create (s : JSt) (l l' : Loc) (p : List Char) (h : History s l) (hl : Lands l p l') :
    getCurrentPath (createPath s p) = getCurrentPath s ∧
    ∀ o, o ∈ (createPath s p).objects ↔ o <+: l' ∨ (o ∈ s.objects ∧ ¬ l' <+: o) := by
  rw [createPath_eq (history_stands h) hl]
  exact ⟨rfl, fun o => mem_putObject _ _ _⟩

/-- C15. The path reported at one time leads back, from any later location, as long as the object there
still exists. -/
theorem path_return (s s2 : JSt) (l l2 : Loc) (h : History s l) (h2 : History s2 l2) (hm : l ∈ s2.objects) :
    ∃ s3, goToPath s2 (getCurrentPath s) = .ok s3 ∧ History s3 l ∧ getCurrentPath s3 = getCurrentPath s := by
  have hs := history_stands h
  have hl := lands_render l l2 hs.good
  rw [← hs.cP] at hl
  obtain ⟨s3, h3, h4, h5, _⟩ := (path_go s2 l2 l (getCurrentPath s) h2 hl).1 hm
  exact ⟨s3, h3, h4, by rw [h5]; exact hs.cP.symm⟩

/-- C15. The create / enter / write / return pattern of the `WriteSerializer` functions, nested and repeated in
any way with relative names, never aborts and ends where it started; objects elsewhere are kept. -/
theorem path_nested_writes (pr : Prog) (hr : pr.Relative) (s : JSt) (l : Loc) (h : History s l)
    (hl : l = [] ∨ l ∈ s.objects) :
    ∃ s', pr.run s = .ok s' ∧ getCurrentPath s' = getCurrentPath s ∧
      ∀ o, o ∈ s.objects → ¬ l <+: o → o ∈ s'.objects := by
  have hs := history_stands h
  obtain ⟨s', h1, h2, h3, _⟩ := prog_run pr s l hr hs hl
  exact ⟨s', h1, by rw [getCurrentPath, getCurrentPath, h2.cP, hs.cP], fun o ho hn => h3 o ho (.inl hn)⟩

/-- `"a//b"` below `/m`, entered after creating it, and back to the root -/
example : ∃ s', (Prog.block "m".toList (.block "a//b".toList .done (.block "c".toList .done .done)) .done).run JSt.open
      = .ok s' ∧ getCurrentPath s' = [] ∧
      s'.objects.contains ["m".toList, "a".toList, "b".toList] ∧ s'.objects.contains ["m".toList, "c".toList] := by
  refine ⟨_, rfl, ?_⟩
  decide

example : (Prog.block "m".toList (.block "a//b".toList .done .done) .done).Relative := by
  simp [Prog.Relative]

example : ∃ s1 s2, goToPath (createPath JSt.open "x/y".toList) "x".toList = .ok s1 ∧
    goToPath s1 "y/".toList = .ok s2 ∧ getCurrentPath s2 = "/x/y".toList := ⟨_, _, rfl, rfl, rfl⟩

/-! ## C17 byte arrays -/

/-- C17. base64 decoding inverts encoding for every byte string. -/
theorem base64_roundtrip (l : List Nat) (h : ∀ b ∈ l, b < 256) : b64Decode (b64Encode l) = .ok l :=
  b64_roundtrip l h

/-- C17. The buffer handed to zlib is large enough by zlib's own bound, for every non-empty array. -/
theorem zlib_buffer_suffices (n : Nat) (h : 1 ≤ n) : compressBound n ≤ zlibCompressedSize n := by
  unfold compressBound zlibCompressedSize
  omega

/-- C17. For the empty array it is one byte short of that bound. -/
theorem zlib_buffer_empty : zlibCompressedSize 0 + 1 = compressBound 0 := by decide

/-- C17. Writing a byte array and reading it back returns the size and the bytes written, with and without the
codec, provided compression succeeds for the empty array. -/
theorem bytes_roundtrip (zl : Zlib) (hz : ZlibOk zl) (useCodec : Bool) (data : List Nat)
    (hd : ∀ b ∈ data, b < 256) (hempty : data = [] → (zl.deflate 12 []).isSome) :
    ∃ j, writeUint8Array zl useCodec data = .ok j ∧ readUint8Size j = data.length ∧
      readUint8Array zl j = .ok data := by
  cases useCodec with
  | false => exact ⟨.plain data, rfl, rfl, rfl⟩
  | true =>
    have hs : (zl.deflate (zlibCompressedSize data.length) data).isSome := by
      cases data with
      | nil => exact hempty rfl
      | cons a l => exact hz.enough _ _ (zlib_buffer_suffices _ (by simp)) hd
    obtain ⟨c, hc⟩ := Option.isSome_iff_exists.1 hs
    refine ⟨.coded data.length (b64Encode c), by simp [writeUint8Array, hc], rfl, ?_⟩
    simp only [readUint8Array, b64_roundtrip c (hz.bytes _ _ _ hc), Res.ok_bind, hz.inverse _ _ _ hc]
    simp [Res.assert]

/-- a compressor that stores the bytes meets the assumptions -/
def storeZlib : Zlib := ⟨fun cap x => if x.length ≤ cap ∧ ∀ b ∈ x, b < 256 then some x else none,
  fun _ y => some y⟩

example : ZlibOk storeZlib := by
  refine ⟨?_, ?_, ?_⟩
  · intro cap x h hb
    have : x.length ≤ cap := by unfold compressBound at h; omega
    simp only [storeZlib]
    rw [if_pos ⟨this, hb⟩]
    rfl
  · intro cap x y h
    simp only [storeZlib] at h
    split at h
    · next hc => injection h with h; subst h; exact hc.2
    · cases h
  · intro cap x y h
    simp only [storeZlib] at h ⊢
    split at h
    · injection h with h; rw [h]
    · cases h

example : b64Encode [77, 97, 110, 77] = "TWFuTQ==".toList := by decide +kernel
example : (storeZlib.deflate 12 []).isSome := by decide

/-! ## C18 shared vectors -/

/-- C18. If addresses identify vectors (no address is reused and no vector changed between writes), paths are
written once, and each variable is read into once, then every read succeeds, gives the contents at writing
time, and two variables hold the same vector exactly when the same vector was written under both paths. -/
theorem shared_roundtrip_partial {P V : Type} [DecidableEq P] (ws : List (Wr P V)) (rs : List (Nat × P))
    (hpaths : (ws.map Wr.p).Nodup) (hsame : ∀ w ∈ ws, ∀ w' ∈ ws, w.a = w'.a → w.v = w'.v)
    (hvars : (rs.map Prod.fst).Nodup) (hread : ∀ r ∈ rs, ∃ w ∈ ws, w.p = r.2) :
    ∃ s, runReads (runWrites ws).doc rs RSt.fresh = .ok s ∧
      (∀ x, ∀ w ∈ ws, (x, w.p) ∈ rs → s.contents x = some w.v) ∧
      (∀ x y, ∀ w ∈ ws, ∀ w' ∈ ws, (x, w.p) ∈ rs → (y, w'.p) ∈ rs → (s.vars x = s.vars y ↔ w.a = w'.a)) := by
  have hw := runWrites_ok ws hpaths hsame
  have h0 : ROk (runWrites ws).doc [] (RSt.fresh : RSt P V) := by
    refine ⟨?_, ?_, ?_⟩
    · intro q y h; simp [RSt.fresh, List.lookup] at h
    · intro q q' y y' h; simp [RSt.fresh, List.lookup] at h
    · intro x p h; simp at h
  obtain ⟨s, h1, h2⟩ := runReads_ok rs [] RSt.fresh h0 (by simpa using hvars) (by
    intro r hr
    obtain ⟨w, hw1, hw2⟩ := hread r hr
    exact ⟨w.v, by rw [← hw2]; exact (hw.root w hw1).2⟩)
  refine ⟨s, h1, ?_, ?_⟩
  · intro x w hw1 hx
    obtain ⟨y, h3, h4⟩ := h2.read x w.p (by simp [hx])
    obtain ⟨_, o, v, h5, h6, h7⟩ := h2.stored _ _ h3
    rw [(hw.root w hw1).2] at h6
    injection h6 with h6
    injection h6 with h6
    subst h6
    simp [RSt.contents, h4, h5, h7]
  · intro x y w hw1 w' hw2 hx hy
    obtain ⟨x', h3, h4⟩ := h2.read x w.p (by simp [hx])
    obtain ⟨y', h5, h6⟩ := h2.read y w'.p (by simp [hy])
    have ra := (hw.root w hw1).1
    have rb := (hw.root w' hw2).1
    constructor
    · intro he
      have := h2.inj _ _ _ _ h3 h5 (by rw [← h4, ← h6, he])
      rw [this] at ra
      exact hw.root_inj hpaths ra rb
    · intro he
      rw [he] at ra
      have e : refPathOf (runWrites ws).doc w.p = refPathOf (runWrites ws).doc w'.p := by
        rw [ra] at rb
        injection rb
      rw [e, h5] at h3
      injection h3 with h3
      rw [h4, h6, h3]

/-- C18 fails when a vector is destroyed and its address reused: the second, different vector is recorded as
a reference to the first (the same happens to a vector changed between two writes). -/
theorem shared_address_reuse :
    ∃ s, runReads (runWrites [⟨"a", 7, [1, 2]⟩, ⟨"b", 7, [3]⟩]).doc [(0, "a"), (1, "b")] RSt.fresh = .ok s ∧
      s.contents 1 = some [1, 2] ∧ s.vars 0 = s.vars 1 := by
  refine ⟨_, rfl, ?_⟩
  decide

/-- C18 fails when the reader reassigns the variable it first read into: a later read of a reference to that
vector copies the variable, not the vector. -/
theorem shared_variable_reassigned :
    ∃ s, runReads (runWrites [⟨"a", 7, [1, 2]⟩, ⟨"b", 8, [3]⟩, ⟨"c", 7, [1, 2]⟩]).doc
        [(0, "a"), (0, "b"), (1, "c")] RSt.fresh = .ok s ∧ s.contents 1 = some [3] := by
  refine ⟨_, rfl, ?_⟩
  decide

example : (([⟨"a", 7, [1, 2]⟩, ⟨"b", 8, [3]⟩, ⟨"c", 7, [1, 2]⟩] : List (Wr String (List Nat))).map Wr.p).Nodup := by decide
example : ∃ s, runReads (runWrites [⟨"a", 7, [1, 2]⟩, ⟨"b", 8, [3]⟩, ⟨"c", 7, [1, 2]⟩]).doc
    [(0, "c"), (1, "b"), (2, "a")] RSt.fresh = .ok s ∧ s.vars 0 = s.vars 2 ∧ s.vars 0 ≠ s.vars 1 ∧
    s.contents 2 = some [1, 2] := by
  refine ⟨_, rfl, ?_⟩
  decide

/-- C18, HDF5. With one rank the HDF5 serializer decides exactly like the JSON one. -/
theorem h5_shared_single {P V : Type} [DecidableEq P] (s : WSt P V) (p : P) (a : Nat) (v : V) :
    h5WriteShared ⟨s.doc, [s.ptr2pth]⟩ p [a] v =
      .ok ⟨(writeShared s p a v).doc, [(writeShared s p a v).ptr2pth]⟩ := by
  unfold h5WriteShared writeShared
  cases h : s.ptr2pth.lookup a <;> simp [h]

/-- C18, HDF5. If every rank has stored the vector it passes under the same path `q`, a reference to `q` is
written; if any rank has not stored its vector, the contents are written anew and every rank remembers it. -/
theorem h5_shared_decision {P V : Type} [DecidableEq P] (s : HSt P V) (p : P) (addrs : List Nat) (v : V)
    (hlen : addrs.length = s.ptr2pth.length) (hpos : 0 < addrs.length) :
    (∀ q, (∀ (r : Nat) t a, s.ptr2pth[r]? = some t → addrs[r]? = some a → t.lookup a = some q) →
      h5WriteShared s p addrs v = .ok { s with doc := (p, .ref q) :: s.doc }) ∧
    ((∃ (r : Nat) (t : List (Nat × P)) (a : Nat), s.ptr2pth[r]? = some t ∧ addrs[r]? = some a ∧ t.lookup a = none) →
      ∃ s', h5WriteShared s p addrs v = .ok s' ∧ s'.doc = (p, .arr v) :: s.doc ∧
        ∀ (r : Nat) t a, s.ptr2pth[r]? = some t → addrs[r]? = some a → s'.ptr2pth[r]? = some ((a, p) :: t)) := by
  obtain ⟨doc, tabs⟩ := s
  simp only at hlen
  constructor
  · intro q hq
    have hall : (tabs.zip addrs).map (fun ta => ta.1.lookup ta.2) = List.replicate addrs.length (some q) := by
      apply List.ext_getElem?
      intro i
      by_cases hi : i < addrs.length
      · have h1 : tabs[i]? = some (tabs[i]'(by omega)) := by simp
        have h2 : addrs[i]? = some addrs[i] := by simp
        rw [List.getElem?_map, (List.getElem?_zip_eq_some (z := (_, _))).2 ⟨h1, h2⟩]
        simp [hq i _ _ h1 h2, hi]
      · rw [List.getElem?_eq_none (by simp; omega), List.getElem?_eq_none (by simp; omega)]
    unfold h5WriteShared
    simp only [hall]
    rw [if_pos (by simp)]
    obtain ⟨n, hn⟩ : ∃ n, addrs.length = n + 1 := ⟨addrs.length - 1, by omega⟩
    rw [hn, List.replicate_succ]
    simp
  · rintro ⟨r, t, a, h1, h2, h3⟩
    unfold h5WriteShared
    simp only at h1 ⊢
    have hz : (tabs.zip addrs)[r]? = some (t, a) := List.getElem?_zip_eq_some.2 ⟨h1, h2⟩
    have hm : (none : Option P) ∈ (tabs.zip addrs).map (fun ta => ta.1.lookup ta.2) :=
      List.mem_map.2 ⟨(t, a), List.mem_of_getElem? hz, h3⟩
    rw [if_neg (by
      rw [List.all_eq_true]
      intro h
      exact absurd (h _ hm) (by simp))]
    refine ⟨_, rfl, rfl, ?_⟩
    intro r' t' a' h1' h2'
    rw [List.getElem?_map, (List.getElem?_zip_eq_some (z := (t', a'))).2 ⟨h1', h2'⟩]
    rfl

/-- C18, HDF5. With several ranks the tables may disagree: both ranks know the address they pass, from
different earlier writes, and would store different references in one attribute. -/
theorem h5_shared_ranks_disagree : ∃ s1 s2,
    h5WriteShared (⟨[], [[], []]⟩ : HSt String (List Nat)) "x" [1, 1] [0] = .ok s1 ∧
    h5WriteShared s1 "y" [2, 2] [5] = .ok s2 ∧ h5WriteShared s2 "z" [1, 2] [0, 5] = .ub := by
  refine ⟨_, _, rfl, rfl, ?_⟩
  decide

/-! ## C19 distributed datasets -/

/-- C19. The offsets computed for a collective write tile `[0, total)` in rank order: the first is 0, each
rank's range ends where the next begins, the last ends at the total. -/
theorem offsets_tile {α : Type} (locals : List (List α)) :
    (0 < locals.length → scanOffset locals 0 = 0) ∧
    (∀ r, r + 1 < locals.length → scanOffset locals (r + 1) = scanOffset locals r + sizeOf locals r) ∧
    (∀ r, r + 1 = locals.length → scanOffset locals r + sizeOf locals r = scanTotal locals) ∧
    scanTotal locals = locals.flatten.length := by
  refine ⟨?_, ?_, ?_, by simp [scanTotal, List.length_flatten]⟩
  · intro h; rw [scanOffset_eq _ _ h]; simp [startAt]
  · intro r h
    rw [scanOffset_eq _ _ h, scanOffset_eq _ _ (by omega), startAt_succ _ _ (by omega)]
  · intro r h
    rw [scanOffset_eq _ _ (by omega), ← startAt_succ _ _ (by omega), h, startAt_length]

/-- C19. Whatever the order in which the ranks' parts reach the file, the dataset is the concatenation of the
local arrays in rank order, and reading with as many ranks gives every rank exactly what it wrote, together
with its offset and the global size. -/
theorem parts_roundtrip {α : Type} (locals : List (List α)) (hne : locals ≠ []) (order : List Nat)
    (ho : Schedule locals.length order) :
    ∃ s, writeParts locals order = .ok s ∧ s.data = locals.flatten.map some ∧
      ∀ (r : Nat) (l : List α), locals[r]? = some l →
        readParts locals.length r s = .ok (l.map some, locals.flatten.length, scanOffset locals r) := by
  refine ⟨_, writeDist_final hne _ (fun r hr => scanOffset_eq locals r hr) order ho, rfl, ?_⟩
  intro r l hl
  have hr : r < locals.length := (List.getElem?_eq_some_iff.1 hl).1
  rw [readParts_final r hr, hl, scanOffset_eq locals r hr, (offsets_tile locals).2.2.2]
  rfl

/-- C19. The same for caller-given offsets, if these tile the dataset. -/
theorem dist_roundtrip {α : Type} (locals : List (List α)) (hne : locals ≠ []) (order : List Nat)
    (ho : Schedule locals.length order) (offOf : Nat → Nat) (total : Nat) (h0 : offOf 0 = 0)
    (hs : ∀ r, r + 1 < locals.length → offOf (r + 1) = offOf r + sizeOf locals r)
    (ht : ∀ r, r + 1 = locals.length → total = offOf r + sizeOf locals r) :
    ∃ s, writeDist offOf total locals order = .ok s ∧ s.data = locals.flatten.map some ∧
      ∀ (r : Nat) (l : List α), locals[r]? = some l →
        readParts locals.length r s = .ok (l.map some, total, offOf r) := by
  have hoff : ∀ r, r < locals.length → offOf r = startAt locals r := by
    intro r
    induction r with
    | zero => intro _; simp [h0, startAt]
    | succ r ih => intro h; rw [hs r h, ih (by omega), startAt_succ _ _ (by omega)]
  have hlen : locals.length ≠ 0 := by simpa using hne
  have htot : total = scanTotal locals := by
    rw [ht (locals.length - 1) (by omega), hoff _ (by omega), ← startAt_succ _ _ (by omega),
      show locals.length - 1 + 1 = locals.length by omega, startAt_length]
  subst htot
  refine ⟨_, writeDist_final hne offOf hoff order ho, rfl, ?_⟩
  intro r l hl
  have hr : r < locals.length := (List.getElem?_eq_some_iff.1 hl).1
  rw [readParts_final r hr, hl, hoff r hr]
  rfl

/-- C19. Reading with a different number of ranks aborts. -/
theorem parts_wrong_nproc {α : Type} (locals : List (List α)) (hne : locals ≠ []) (order : List Nat)
    (ho : Schedule locals.length order) (s : DistSet α) (hs : writeParts locals order = .ok s)
    (n r : Nat) (hn : n ≠ locals.length) : readParts n r s = .abort := by
  have h := writeDist_final hne _ (fun r hr => scanOffset_eq locals r hr) order ho
  unfold writeParts at hs
  rw [h] at hs
  injection hs with hs
  subst hs
  unfold readParts
  have : ¬ (((List.range (locals.length + 1)).map (fun r => some (startAt locals r))).length = n + 1) := by
    simp; omega
  simp only [Res.assert, if_neg this, Res.abort_bind]

/-- C19, collective transfers. A rank with nothing to read skips the transfer the others enter, so with
collective data access switched on a partition with an empty rank does not complete. -/
theorem collective_read_skipped : ∃ locals : List (List Nat), joinsRead locals 0 = true ∧ joinsRead locals 1 = false :=
  ⟨[[4], []], by decide, by decide⟩

example : Schedule 3 [2, 0, 1] := by
  intro r
  simp only [List.mem_cons, List.not_mem_nil, or_false]
  omega
example : ∃ s, writeParts [[4, 5], [], [6]] [2, 0, 1] = .ok s ∧ s.data = [some 4, some 5, some 6] ∧
    s.offs = [some 0, some 2, some 2, some 3] := ⟨_, rfl, by decide, by decide⟩

end DNDSR.Ser
