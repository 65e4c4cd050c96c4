import Verif.Proof.FacesGhost

/-! Helper lemmas for `Verif.Props.FacesGhost`: which faces a rank keeps, in closed form. -/

namespace DNDSR.Faces

open DNDSR.Elem DNDSR.IMap DNDSR.MeshAdj DNDSR.Part

/-- what becomes of a face -/
inductive Status where
  | drop | away | keep | send (rank : Nat)
  deriving DecidableEq

def Status.Kept : Status → Prop
  | .keep => True
  | .send _ => True
  | _ => False

def Status.step (c : Collect) : Status → Collect
  | .drop => { c with all := c.all ++ [unInit] }
  | .away => { c with all := c.all ++ [-1] }
  | .keep => { c with all := c.all ++ [(c.n : Int)], n := c.n + 1 }
  | .send ρ => ⟨c.all ++ [(c.n : Int)], c.send.set ρ (c.send[ρ]?.getD [] ++ [(c.n : Int)]), c.n + 1⟩

/-- the faces seen so far and what was recorded of them -/
structure Coll (stat : Face → Status) (size : Nat) (fs : List Face) (c : Collect) : Prop where
  len : c.all.length = fs.length
  n : c.n = (keptFaces fs c.all).length
  drop : ∀ (k : Nat) (f : Face), fs[k]? = some f → stat f = .drop → c.all[k]? = some unInit
  away : ∀ (k : Nat) (f : Face), fs[k]? = some f → stat f = .away → c.all[k]? = some (-1)
  kept : ∀ (k : Nat) (f : Face), fs[k]? = some f → (stat f).Kept → ∃ q : Nat, c.all[k]? = some (q : Int) ∧ (keptFaces fs c.all)[q]? = some f
  back : ∀ (q : Nat) (f : Face), (keptFaces fs c.all)[q]? = some f → ∃ k : Nat, fs[k]? = some f ∧ c.all[k]? = some (q : Int) ∧ (stat f).Kept
  lt : ∀ (k q : Nat), c.all[k]? = some (q : Int) → q < c.n
  inj : ∀ (k k' q : Nat), c.all[k]? = some (q : Int) → c.all[k']? = some (q : Int) → k = k'
  sendLen : c.send.length = size
  sendSorted : ∀ (ρ : Nat) (row : List Int), c.send[ρ]? = some row → row.Pairwise (· < ·) ∧ ∀ v ∈ row, ∃ q : Nat, v = q ∧ q < c.n
  sendMem : ∀ (ρ : Nat) (row : List Int), c.send[ρ]? = some row → ∀ q : Nat, (q : Int) ∈ row ↔
    ∃ f, (keptFaces fs c.all)[q]? = some f ∧ stat f = .send ρ

theorem coll_init (stat : Face → Status) (size : Nat) : Coll stat size [] ⟨[], List.replicate size [], 0⟩ := by
  constructor <;> simp [keptFaces]
  · intro ρ row h
    rw [List.getElem?_replicate] at h
    split at h
    all_goals cases h
    simp
  · intro ρ row h q
    rw [List.getElem?_replicate] at h
    split at h
    all_goals cases h
    simp

theorem keptFaces_append {fs : List Face} {all : List Int} (h : all.length = fs.length) (f : Face) (a : Int) :
    keptFaces (fs ++ [f]) (all ++ [a]) = keptFaces fs all ++ if a ≥ 0 then [f] else [] := by
  simp only [keptFaces]
  rw [List.zip_append h.symm, List.filter_append, List.map_append]
  congr 1
  by_cases ha : a ≥ 0 <;> simp [ha]

theorem get_append_one {α : Type} {l : List α} {a x : α} {k : Nat} (h : (l ++ [a])[k]? = some x) :
    l[k]? = some x ∨ (k = l.length ∧ x = a) := by
  by_cases hk : k < l.length
  · rw [List.getElem?_append_left hk] at h; exact Or.inl h
  · rw [List.getElem?_append_right (by omega)] at h
    obtain ⟨h1, h2⟩ := List.getElem?_eq_some_iff.1 h
    simp at h1
    simp at h2
    exact Or.inr ⟨by omega, h2.symm⟩

theorem get_left {α : Type} {l m : List α} {x : α} {k : Nat} (h : l[k]? = some x) : (l ++ m)[k]? = some x := by
  rw [List.getElem?_append_left (List.getElem?_eq_some_iff.1 h).1]; exact h

theorem get_last {α : Type} {l : List α} {x : α} {k : Nat} (h : k = l.length) : (l ++ [x])[k]? = some x := by
  subst h; simp

theorem coll_step {stat : Face → Status} {size : Nat} {fs : List Face} {c : Collect} (h : Coll stat size fs c) (f : Face)
    (hρ : ∀ ρ, stat f = .send ρ → ρ < size) : Coll stat size (fs ++ [f]) ((stat f).step c) := by
  have hneg : ∀ a : Int, a < 0 → (stat f).step c = { c with all := c.all ++ [a] } → ¬ (stat f).Kept →
      (stat f = .drop → a = unInit) → (stat f = .away → a = -1) → Coll stat size (fs ++ [f]) ((stat f).step c) := by
    intro a ha e hk hd hw
    rw [e]
    have ek := keptFaces_append h.len f a
    rw [if_neg (by omega), List.append_nil] at ek
    have hold : ∀ {k q : Nat}, (c.all ++ [a])[k]? = some (q : Int) → c.all[k]? = some (q : Int) := by
      intro k q hq
      rcases get_append_one hq with hq | ⟨_, hq⟩
      · exact hq
      · omega
    refine ⟨by simp [h.len], by simp only [ek]; exact h.n, ?_, ?_, ?_, ?_, fun k q hq => h.lt k q (hold hq),
      fun k k' q hq hq' => h.inj k k' q (hold hq) (hold hq'), h.sendLen, h.sendSorted, by simp only [ek]; exact h.sendMem⟩
    · intro k g hg hs
      rcases get_append_one hg with hg | ⟨rfl, rfl⟩
      · exact get_left (h.drop k g hg hs)
      · rw [← hd hs]; exact get_last h.len.symm
    · intro k g hg hs
      rcases get_append_one hg with hg | ⟨rfl, rfl⟩
      · exact get_left (h.away k g hg hs)
      · rw [← hw hs]; exact get_last h.len.symm
    · intro k g hg hs
      simp only [ek]
      rcases get_append_one hg with hg | ⟨rfl, rfl⟩
      · obtain ⟨q, h1, h2⟩ := h.kept k g hg hs
        exact ⟨q, get_left h1, h2⟩
      · exact absurd hs hk
    · intro q g hg
      simp only [ek] at hg
      obtain ⟨k, h1, h2, h3⟩ := h.back q g hg
      exact ⟨k, get_left h1, get_left h2, h3⟩
  have hpos : ∀ s : List (List Int), (stat f).step c = ⟨c.all ++ [(c.n : Int)], s, c.n + 1⟩ → (stat f).Kept → s.length = size →
      (∀ (ρ : Nat) (row : List Int), s[ρ]? = some row → (row.Pairwise (· < ·) ∧ ∀ v ∈ row, ∃ q : Nat, v = q ∧ q < c.n + 1) ∧
        ∀ q : Nat, (q : Int) ∈ row ↔ (∃ g, (keptFaces fs c.all)[q]? = some g ∧ stat g = .send ρ) ∨ (q = c.n ∧ stat f = .send ρ)) →
      Coll stat size (fs ++ [f]) ((stat f).step c) := by
    intro s e hk hsz hsend
    rw [e]
    have ek := keptFaces_append h.len f (c.n : Int)
    rw [if_pos (by omega)] at ek
    have hold : ∀ {k q : Nat}, (c.all ++ [(c.n : Int)])[k]? = some (q : Int) → c.all[k]? = some (q : Int) ∨ (k = fs.length ∧ q = c.n) := by
      intro k q hq
      rcases get_append_one hq with hq | ⟨hk, hq⟩
      · exact Or.inl hq
      · exact Or.inr ⟨by rw [hk, h.len], by omega⟩
    refine ⟨by simp [h.len], by simp only [ek, List.length_append, List.length_singleton]; rw [h.n], ?_, ?_, ?_, ?_, ?_, ?_, hsz, fun ρ row hr => (hsend ρ row hr).1, ?_⟩
    · intro k g hg hs
      rcases get_append_one hg with hg | ⟨rfl, rfl⟩
      · exact get_left (h.drop k g hg hs)
      · rw [hs] at hk; exact absurd hk id
    · intro k g hg hs
      rcases get_append_one hg with hg | ⟨rfl, rfl⟩
      · exact get_left (h.away k g hg hs)
      · rw [hs] at hk; exact absurd hk id
    · intro k g hg hs
      simp only [ek]
      rcases get_append_one hg with hg | ⟨rfl, rfl⟩
      · obtain ⟨q, h1, h2⟩ := h.kept k g hg hs
        exact ⟨q, get_left h1, get_left h2⟩
      · exact ⟨c.n, get_last h.len.symm, get_last h.n⟩
    · intro q g hg
      simp only [ek] at hg
      rcases get_append_one hg with hg | ⟨rfl, rfl⟩
      · obtain ⟨k, h1, h2, h3⟩ := h.back q g hg
        exact ⟨k, get_left h1, get_left h2, h3⟩
      · exact ⟨fs.length, get_last rfl, by rw [← h.n]; exact get_last h.len.symm, hk⟩
    · intro k q hq
      rcases hold hq with hq | ⟨_, hq⟩
      · have := h.lt k q hq; show q < c.n + 1; omega
      · show q < c.n + 1; omega
    · intro k k' q hq hq'
      rcases hold hq with hq | ⟨e1, e2⟩ <;> rcases hold hq' with hq' | ⟨e3, e4⟩
      · exact h.inj k k' q hq hq'
      · have := h.lt k q hq; omega
      · have := h.lt k' q hq'; omega
      · omega
    · intro ρ row hr q
      rw [(hsend ρ row hr).2 q]
      simp only [ek]
      constructor
      · rintro (⟨g, h1, h2⟩ | ⟨rfl, h2⟩)
        · exact ⟨g, get_left h1, h2⟩
        · exact ⟨f, get_last h.n, h2⟩
      · rintro ⟨g, h1, h2⟩
        rcases get_append_one h1 with h1 | ⟨rfl, rfl⟩
        · exact Or.inl ⟨g, h1, h2⟩
        · exact Or.inr ⟨h.n.symm, h2⟩
  cases hs : stat f with
  | drop => rw [← hs]; exact hneg unInit (by decide) (by rw [hs]; rfl) (by rw [hs]; exact id) (fun _ => rfl) (fun e => by rw [hs] at e; cases e)
  | away => rw [← hs]; exact hneg (-1) (by decide) (by rw [hs]; rfl) (by rw [hs]; exact id) (fun e => by rw [hs] at e; cases e) (fun _ => rfl)
  | keep =>
    rw [← hs]
    refine hpos c.send (by rw [hs]; rfl) (by rw [hs]; trivial) h.sendLen ?_
    intro ρ row hr
    obtain ⟨h1, h2⟩ := h.sendSorted ρ row hr
    refine ⟨⟨h1, fun v hv => ?_⟩, fun q => ?_⟩
    · obtain ⟨q, a, b⟩ := h2 v hv
      exact ⟨q, a, by omega⟩
    · rw [h.sendMem ρ row hr q]
      constructor
      · exact fun h => Or.inl h
      · rintro (h | ⟨_, h⟩)
        · exact h
        · rw [hs] at h; cases h
  | send ρ0 =>
    rw [← hs]
    have hlt : ρ0 < c.send.length := by rw [h.sendLen]; exact hρ ρ0 hs
    refine hpos (c.send.set ρ0 (c.send[ρ0]?.getD [] ++ [(c.n : Int)])) (by rw [hs]; rfl) (by rw [hs]; trivial) (by simp [h.sendLen]) ?_
    intro ρ row hr
    by_cases he : ρ = ρ0
    · subst he
      rw [List.getElem?_set_self hlt, Option.some.injEq, List.getElem?_eq_getElem hlt, Option.getD_some] at hr
      subst hr
      obtain ⟨h1, h2⟩ := h.sendSorted ρ _ (List.getElem?_eq_getElem hlt)
      refine ⟨⟨?_, ?_⟩, ?_⟩
      · rw [List.pairwise_append]
        refine ⟨h1, by simp, ?_⟩
        intro a ha b hb
        obtain ⟨q, e, hq⟩ := h2 a ha
        simp at hb
        omega
      · intro v hv
        rcases List.mem_append.1 hv with hv | hv
        · obtain ⟨q, a, b⟩ := h2 v hv
          exact ⟨q, a, by omega⟩
        · simp at hv
          exact ⟨c.n, hv, by omega⟩
      · intro q
        rw [List.mem_append, h.sendMem ρ _ (List.getElem?_eq_getElem hlt) q]
        simp only [List.mem_singleton, hs, and_true, Int.natCast_inj]
    · rw [List.getElem?_set_ne (by omega)] at hr
      obtain ⟨h1, h2⟩ := h.sendSorted ρ row hr
      refine ⟨⟨h1, fun v hv => ?_⟩, fun q => ?_⟩
      · obtain ⟨q, a, b⟩ := h2 v hv
        exact ⟨q, a, by omega⟩
      · rw [h.sendMem ρ row hr q]
        constructor
        · exact fun h => Or.inl h
        · rintro (h | ⟨_, h⟩)
          · exact h
          · rw [hs] at h; cases h; exact absurd rfl he

theorem collectFaces_spec {mp : Map} {g : GOM} {rank nFather size : Nat} (stat : Face → Status) : ∀ (fs pre : List Face) (c : Collect),
    Coll stat size pre c →
    (∀ f ∈ fs, (∀ ρ, stat f = .send ρ → ρ < size) ∧
      ∀ c : Collect, c.send.length = size → collectFace mp g rank nFather c f = .ok ((stat f).step c)) →
    ∃ c', collectFaces mp g rank nFather c fs = .ok c' ∧ Coll stat size (pre ++ fs) c' := by
  intro fs
  induction fs with
  | nil => intro pre c hc _; exact ⟨c, rfl, by simpa using hc⟩
  | cons f fs ih =>
    intro pre c hc h
    obtain ⟨h1, h2⟩ := h f (by simp)
    obtain ⟨c', e, hc'⟩ := ih (pre ++ [f]) ((stat f).step c) (coll_step hc f h1) (fun g hg => h g (by simp [hg]))
    refine ⟨c', ?_, by simpa using hc'⟩
    rw [collectFaces, h2 c hc.sendLen, Res.ok_bind, e]

/-- the rank of an entry -/
def ownerOf (g : GOM) (q : Int) : Nat := match g.search q with | .ok (some (ρ, _)) => ρ | _ => 0

theorem ownerOf_eq {lens : List Nat} {g : GOM} (hg : Built lens g) {ρ : Nat} {q : Int} (h : Owns lens ρ q) : ownerOf g q = ρ := by
  rw [ownerOf, search_of_owns hg h]

/-- the code's case distinction -/
def statOf (mp : Map) (g : GOM) (r nOwn : Nat) (f : Face) : Status :=
  if f.second = unInit then (if f.first ≥ nOwn then .drop else .keep)
  else if f.first ≥ nOwn ∧ f.second ≥ nOwn then .drop
  else if f.second ≥ nOwn then
    (if r > ownerOf g (numberOf mp f.second) then .away else .send (ownerOf g (numberOf mp f.second)))
  else .keep

end DNDSR.Faces
