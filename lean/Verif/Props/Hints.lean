import Verif.Props.Accessors

/-!
# Size hints: exactly when they are right (C27)
-/

namespace FF

/-! ## N-grams -/

theorem NGrams.new_sizeHint {s : Str} {m M : Nat} {it : NGrams} (h : NGrams.new s m M = .ok it) :
    1 ≤ m ∧ m ≤ M ∧ it.sizeHint = (M - m + 1) * s.length := by
  obtain ⟨h1, h2, -⟩ := (NGramsReach.init h).inv
  refine ⟨h1, h2, ?_⟩
  unfold NGrams.new at h
  have : m ≠ 0 := by omega
  simp [Res.assert, h2, this] at h
  subst h
  simp [NGrams.sizeHint]

theorem specFrom_length_eq {m M : Nat} (hm : 1 ≤ m) (hM : m ≤ M) (s : Str) :
    (specFrom m M s).length = (M - m + 1) * s.length ↔ s = [] ∨ (m = 1 ∧ M = 1) := by
  constructor
  · intro h
    refine Decidable.byContradiction fun hc => ?_
    obtain ⟨h0, h1⟩ := not_or.mp hc
    have key : ∀ s : Str, s ≠ [] → (specFrom m M s).length < (M - m + 1) * s.length := by
      intro s
      induction s with
      | nil => simp
      | cons c s ih =>
        intro _
        rw [specFrom, List.length_append, List.length_map, down_length _ _ hm, List.length_cons, Nat.mul_add, Nat.mul_one]
        cases s with
        | nil => simp only [specFrom, List.length_nil]; omega
        | cons d s =>
          have := ih (by simp)
          have : min M ((d :: s).length + 1) ≤ M := Nat.min_le_left _ _
          omega
    exact absurd h (Nat.ne_of_lt (key s h0))
  · rintro (rfl | ⟨rfl, rfl⟩)
    · simp [specFrom]
    · induction s with
      | nil => simp [specFrom]
      | cons c s ih =>
        rw [specFrom, List.length_append, ih, List.length_map, down_length _ _ hm, List.length_cons]
        have : min 1 (s.length + 1) = 1 := by omega
        rw [this]; omega

/-- **C27** (when the lower bound is right). The hint of a fresh n-gram iterator, which is both bounds, is a lower bound exactly if the
string is empty or only n-grams of length one are asked for; then it is the number of n-grams. -/
theorem c27_ngrams_exact (s : Str) (minN maxN : Nat) (it : NGrams) (gs : List NGram) (h : NGrams.new s minN maxN = .ok it)
    (hg : it.collect it.fuel = .ok gs) : it.sizeHint ≤ gs.length ↔ s = [] ∨ (minN = 1 ∧ maxN = 1) := by
  obtain ⟨h1, h2, h3⟩ := NGrams.new_sizeHint h
  have e : gs = specFrom minN maxN s := by
    have := ngrams_eq_specFrom s minN maxN h1 h2
    unfold ngrams at this
    rw [h, Res.ok_bind, hg] at this
    cases this; rfl
  rw [h3, e, ← specFrom_length_eq h1 h2]
  have := specFrom_length_le (M := maxN) h1 s
  omega

/-- The string is not empty, and the hint is right for n-grams of length one, but not for those of length one and two. -/
example : (∃ it gs, NGrams.new ['a', 'b'] 1 1 = .ok it ∧ it.collect it.fuel = .ok gs ∧ it.sizeHint = 2 ∧ gs.length = 2) ∧
    ∃ it gs, NGrams.new ['a', 'b'] 1 2 = .ok it ∧ it.collect it.fuel = .ok gs ∧ it.sizeHint = 4 ∧ gs.length = 3 :=
  ⟨⟨_, _, rfl, rfl, rfl, rfl⟩, _, _, rfl, rfl, rfl, rfl⟩

/-! ## Indices -/

variable {I : Type} [Indexer I]

/-- States an iterator over subword indices of `s` can be in. -/
inductive IndicesReach (ix : I) (s : Str) (minN maxN : Nat) : NGramsIndicesIter → Prop
  | init {it} : NGramsIndicesIter.new ix s minN maxN = .ok it → IndicesReach ix s minN maxN it
  | next {it it' o} : IndicesReach ix s minN maxN it → it.next ix = .ok (o, it') → IndicesReach ix s minN maxN it'

theorem IndicesReach.inv {ix : I} {s : Str} {m M : Nat} {it : NGramsIndicesIter} (h : IndicesReach ix s m M it) :
    NGramsReach s m M it.ngrams ∧ (it.string = none ∨ Indexer.scope ix = .stringAndSubstrings) := by
  induction h with
  | init h =>
    unfold NGramsIndicesIter.new at h
    obtain ⟨g, h1, h⟩ := Res.bind_eq_ok.mp h
    cases h
    refine ⟨.init h1, ?_⟩
    cases Indexer.scope ix with
    | substrings => exact .inl rfl
    | stringAndSubstrings => exact .inr rfl
  | @next it it' o _ hn ih =>
    unfold NGramsIndicesIter.next at hn
    obtain ⟨str, g⟩ := it
    cases str with
    | some s =>
      obtain ⟨is, -, hn⟩ := Res.bind_eq_ok.mp hn
      cases hn
      exact ⟨ih.1, .inl rfl⟩
    | none =>
      obtain ⟨⟨o', g'⟩, h1, hn⟩ := Res.bind_eq_ok.mp hn
      cases o' with
      | none => cases hn; exact ⟨.next ih.1 h1, .inl rfl⟩
      | some x =>
        obtain ⟨is, -, hn⟩ := Res.bind_eq_ok.mp hn
        cases hn
        exact ⟨.next ih.1 h1, .inl rfl⟩

theorem collect_none_length {ix : I} {it : NGrams} {fuel : Nat} {gs : List NGram} {l : List (Str × List Nat)}
    (hg : it.collect fuel = .ok gs) (h : NGramsIndicesIter.collect ix fuel ⟨none, it⟩ = .ok l) : l.length = gs.length := by
  rw [NGramsIndicesIter.collect_none ix hg] at h
  clear hg
  induction gs generalizing l with
  | nil => cases h; rfl
  | cons g gs ih =>
    rw [List.mapM_cons] at h
    obtain ⟨x, _, h⟩ := Res.bind_eq_ok.mp h
    obtain ⟨xs, hxs, h⟩ := Res.bind_eq_ok.mp h
    cases h
    rw [List.length_cons, List.length_cons, ih hxs]

/-- **C27** (upper bounds in every state). In every state of an iterator over subword indices, the number of items it will still yield
is at most the size hint, or at most one more if the indexer also indexes the whole string (floret) and no item was taken. -/
theorem c27_indices_state (ix : I) (s : Str) (minN maxN : Nat) (it : NGramsIndicesIter) (h : IndicesReach ix s minN maxN it)
    (l : List (Str × List Nat)) (hl : NGramsIndicesIter.collect ix (it.ngrams.fuel + 1) it = .ok l) :
    (it.string = none → l.length ≤ it.ngrams.sizeHint) ∧
    (Indexer.scope ix = .substrings → l.length ≤ it.ngrams.sizeHint) ∧ l.length ≤ it.ngrams.sizeHint + 1 := by
  obtain ⟨hr, hs⟩ := h.inv
  obtain ⟨gs, hg, hle⟩ := c27_ngrams_upper_bound_partial _ _ _ _ hr
  obtain ⟨str, g⟩ := it
  cases str with
  | none =>
    have := collect_none_length (NGrams.collect_succ hg) hl
    exact ⟨fun _ => by omega, fun _ => by omega, by omega⟩
  | some w =>
    rcases hs with hs | hs
    · cases hs
    · refine ⟨fun h => (by cases h), fun h => (by rw [hs] at h; cases h), ?_⟩
      rw [NGramsIndicesIter.collect] at hl
      simp only [NGramsIndicesIter.next, bind_assoc, Res.pure_eq, Res.ok_bind] at hl
      obtain ⟨is, -, hl⟩ := Res.bind_eq_ok.mp hl
      obtain ⟨xs, hx, hl⟩ := Res.bind_eq_ok.mp hl
      cases hl
      have := collect_none_length hg hx
      rw [List.length_cons]
      omega

/-- **C27** (when the upper bound is wrong). The hint of a fresh iterator of an indexer that also indexes the whole string is no upper
bound exactly if the string is empty or only n-grams of length one are asked for; then it is one too low. -/
theorem c27_indices_exact (ix : I) (s : Str) (minN maxN : Nat) (hs : Indexer.scope ix = .stringAndSubstrings) (it : NGramsIndicesIter)
    (h : NGramsIndicesIter.new ix s minN maxN = .ok it) (l : List (Str × List Nat))
    (hl : NGramsIndicesIter.collect ix (it.ngrams.fuel + 1) it = .ok l) :
    it.ngrams.sizeHint < l.length ↔ s = [] ∨ (minN = 1 ∧ maxN = 1) := by
  unfold NGramsIndicesIter.new at h
  obtain ⟨g, h1, h⟩ := Res.bind_eq_ok.mp h
  cases h
  obtain ⟨gs, hg, hle⟩ := c27_ngrams_upper_bound_partial _ _ _ _ (.init h1)
  rw [← c27_ngrams_exact s minN maxN g gs h1 hg]
  rw [hs, NGramsIndicesIter.collect] at hl
  simp only [NGramsIndicesIter.next, bind_assoc, Res.pure_eq, Res.ok_bind] at hl
  obtain ⟨is, -, hl⟩ := Res.bind_eq_ok.mp hl
  obtain ⟨xs, hx, hl⟩ := Res.bind_eq_ok.mp hl
  cases hl
  have := collect_none_length hg hx
  rw [List.length_cons]
  show g.sizeHint < _ ↔ _
  omega

/-- The hypotheses of `c27_indices_state` and `c27_indices_exact` can be met: an indexer that indexes the whole string too. The hint is
one too low for n-grams of length one, and right for those of length one and two. -/
example : (∃ it l, IndicesReach (⟨2, 7, 3⟩ : FloretIndexer) ['a', 'b'] 1 1 it ∧
      NGramsIndicesIter.new (⟨2, 7, 3⟩ : FloretIndexer) ['a', 'b'] 1 1 = .ok it ∧
      NGramsIndicesIter.collect (⟨2, 7, 3⟩ : FloretIndexer) (it.ngrams.fuel + 1) it = .ok l ∧ it.ngrams.sizeHint = 2 ∧ l.length = 3) ∧
    ∃ it l, NGramsIndicesIter.new (⟨2, 7, 3⟩ : FloretIndexer) ['a', 'b'] 1 2 = .ok it ∧
      NGramsIndicesIter.collect (⟨2, 7, 3⟩ : FloretIndexer) (it.ngrams.fuel + 1) it = .ok l ∧ it.ngrams.sizeHint = 4 ∧ l.length = 4 :=
  ⟨⟨_, _, .init rfl, rfl, rfl, rfl, rfl⟩, _, _, rfl, rfl, rfl, rfl⟩

end FF
