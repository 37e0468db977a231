import Verif.Model.Accessors
import Verif.Lemmas.Indexers
import Verif.Props.Exact

/-!
# Size hints in 64 bits (C69) and the memory reserved for lists of n-grams (C85)
-/

namespace FF

theorem NGrams.new_eq (s : Str) {m M : Nat} (h1 : 1 ≤ m) (h2 : m ≤ M) :
    NGrams.new s m M = .ok (stateAt m M [] s (min M s.length)) := by
  have h1 : ¬ m = 0 := by omega
  simp [NGrams.new, h1, h2, stateAt]

/-- **C69** (overflow). Computing the size hint of a new n-gram iterator panics, in builds with overflow checks, exactly if
`(max_n - min_n + 1) * L` does not fit 64 bits; enumerating the n-grams works in any case. -/
theorem c69_overflow (s : Str) (minN maxN : Nat) (h1 : 1 ≤ minN) (h2 : minN ≤ maxN) :
    ∃ it gs, NGrams.new s minN maxN = .ok it ∧ it.collect it.fuel = .ok gs ∧
      it.sizeHint64 =
        if (maxN - minN + 1) * s.length < 2 ^ 64 then .ok ((maxN - minN + 1) * s.length) else .panic := by
  obtain ⟨it, gs, hit, hgs, _, hh, _⟩ := c69_count s minN maxN h1 h2
  refine ⟨it, gs, hit, hgs, ?_⟩
  unfold NGrams.sizeHint64
  rw [hh]
  have hu : usizeMax = 2 ^ 64 - 1 := rfl
  by_cases h : (maxN - minN + 1) * s.length < 2 ^ 64
  · rw [if_pos h, decide_eq_true (by omega)]; rfl
  · rw [if_neg h, decide_eq_false (by omega)]; rfl

/-- The n-grams of length 1 and more of "ab". -/
example : ∃ it gs, NGrams.new ['a', 'b'] 1 (2 ^ 64 - 1) = .ok it ∧ it.collect it.fuel = .ok gs ∧ it.sizeHint64 = .panic := by
  obtain ⟨it, gs, h1, h2, h3⟩ := c69_overflow ['a', 'b'] 1 (2 ^ 64 - 1) (by omega) (by omega)
  exact ⟨it, gs, h1, h2, by rw [h3]; decide⟩

/-! ## C85 -/

section
variable {I : Type} [Indexer I]

theorem assertOk {c : Bool} {u : Unit} : Res.assert c = .ok u ↔ c = true := by cases c <;> simp

/-- The first call of `next` of a new subword iterator leaves the size hint as it is. -/
theorem NGramsIndicesIter.next_new {ix : I} {s : Str} {m M : Nat} (h1 : 1 ≤ m) (h2 : m ≤ M)
    {l : List (Str × List Nat)} (hl : subwordIndicesWithNgrams ix s m M = .ok l) :
    ∃ it o it', NGramsIndicesIter.new ix s m M = .ok it ∧ it.next ix = .ok (o, it') ∧
      (o = none ↔ l = []) ∧ (o ≠ none → it'.ngrams.sizeHint = (M - m + 1) * s.length) := by
  unfold subwordIndicesWithNgrams at hl
  rw [ngrams_eq_specFrom s m M h1 h2] at hl
  simp only [Res.ok_bind] at hl
  have hsz : ∀ n, (stateAt m M [] s n).sizeHint = (M - m + 1) * s.length := fun n => by simp [NGrams.sizeHint]
  have hnew : NGramsIndicesIter.new ix s m M = .ok ⟨match Indexer.scope ix with
      | .substrings => none
      | .stringAndSubstrings => some s, stateAt m M [] s (min M s.length)⟩ := by
    unfold NGramsIndicesIter.new
    rw [NGrams.new_eq s h1 h2]; rfl
  rw [hnew]
  cases hs : Indexer.scope ix with
  | stringAndSubstrings =>
    rw [hs] at hl
    simp only [List.singleton_append, List.mapM_cons, bind_assoc, Res.pure_eq, Res.ok_bind] at hl
    obtain ⟨is, his, hl⟩ := Res.bind_eq_ok.mp hl
    obtain ⟨rest, _, hl⟩ := Res.bind_eq_ok.mp hl
    cases hl
    refine ⟨_, some (s, is), ⟨none, stateAt m M [] s (min M s.length)⟩, rfl, ?_, by simp, fun _ => hsz _⟩
    simp [NGramsIndicesIter.next, his]
  | substrings =>
    rw [hs] at hl
    simp only [List.nil_append] at hl
    by_cases hlen : s.length < m
    · rw [specFrom_eq_nil hlen] at hl
      cases hl
      refine ⟨_, none, ⟨none, { stateAt m M [] s (min M s.length) with
        charOffsets := (stateAt m M [] s (min M s.length)).charOffsets.tail }⟩, rfl, ?_, by simp, by simp⟩
      simp only [NGramsIndicesIter.next]
      rw [next_of_none (by simp; omega) (by simp [charOffsetsFrom_length]; omega)]
      rfl
    · have hn : (stateAt m M [] s (min M s.length)).next =
          .ok (some ⟨s.take (min M s.length), min M s.length⟩, stateAt m M [] s (min M s.length - 1)) := by
        rw [next_of_ge (by simp; omega)]
        exact emit_stateAt m M [] s _ (by omega) (by omega)
      have hspec : ∃ gs, specFrom m M s = ⟨s.take (min M s.length), min M s.length⟩ :: gs := by
        cases s with
        | nil => simp at hlen; omega
        | cons c s =>
          obtain ⟨k, hk⟩ : ∃ k, min M (s.length + 1) = k + 1 := ⟨min M (s.length + 1) - 1, by omega⟩
          have hm : m ≤ k + 1 := by simp only [List.length_cons] at hlen; omega
          simp only [specFrom, List.length_cons, hk, down, hm, if_true, List.map_cons, List.cons_append]
          exact ⟨_, rfl⟩
      obtain ⟨gs, hspec⟩ := hspec
      rw [hspec, List.mapM_cons] at hl
      simp only [bind_assoc, Res.pure_eq, Res.ok_bind] at hl
      obtain ⟨is, his, hl⟩ := Res.bind_eq_ok.mp hl
      obtain ⟨rest, _, hl⟩ := Res.bind_eq_ok.mp hl
      cases hl
      refine ⟨_, some (s.take (min M s.length), is), ⟨none, stateAt m M [] s (min M s.length - 1)⟩, rfl, ?_, by simp, fun _ => hsz _⟩
      simp only [NGramsIndicesIter.next]
      rw [hn]
      simp [his]

/-- **C85** (part). Listing the n-grams of a word reserves memory for `(max_n - min_n + 1) * L + 1` elements (but at least
four), where `L` is the number of characters of the word with its boundary markers, whatever the number of n-grams that are
then listed; and it reserves nothing if there are none. In particular, this is bounded by the length of the word for
vocabularies with a bounded `max_n`. Missing: a bound in terms of the listed n-grams (`c85_bound_false`). -/
theorem c85_capacity_partial (v : SubwordVocab I) (w : Str) (r : Option (List (Str × List Nat)))
    (h : v.ngramIndices w = .ok r) (hM : v.maxN < 2 ^ 32) (hw : (v.bow ++ w ++ v.eow).length < 2 ^ 32) :
    v.ngramIndicesCapacity w = .ok (r.map fun _ => max 4 ((v.maxN - v.minN + 1) * (v.bow ++ w ++ v.eow).length + 1)) := by
  unfold SubwordVocab.ngramIndices at h
  obtain ⟨l, hl, h⟩ := Res.bind_eq_ok.mp h
  simp only [Res.pure_eq, Res.ok.injEq] at h
  have hv : 1 ≤ v.minN ∧ v.minN ≤ v.maxN := by
    unfold subwordIndicesWithNgrams ngrams at hl
    obtain ⟨gs, hgs, _⟩ := Res.bind_eq_ok.mp hl
    obtain ⟨it, hit, _⟩ := Res.bind_eq_ok.mp hgs
    unfold NGrams.new at hit
    obtain ⟨_, ha, hit⟩ := Res.bind_eq_ok.mp hit
    obtain ⟨_, hb, _⟩ := Res.bind_eq_ok.mp hit
    have ha := assertOk.mp ha
    have hb := assertOk.mp hb
    simp only [decide_eq_true_eq] at ha hb
    omega
  obtain ⟨it, o, it', h1, h2, h3, h4⟩ := NGramsIndicesIter.next_new hv.1 hv.2 hl
  unfold SubwordVocab.ngramIndicesCapacity
  rw [h1]; simp only [Res.ok_bind]
  rw [h2]; simp only [Res.ok_bind]
  cases o with
  | none =>
    have := h3.mp rfl
    subst this
    simp at h
    subst h; rfl
  | some x =>
    have hne : l ≠ [] := fun hh => by simpa using h3.mpr hh
    have h4 := h4 (by simp)
    have hr : r = some (l.map fun p => (p.1, p.2.map (· + v.indices.len))) := by
      rw [← h, if_neg]
      simpa using hne
    subst hr
    have hle : (v.maxN - v.minN + 1) * (v.bracket w).length < 2 ^ 64 - 1 := by
      have ha : v.maxN - v.minN + 1 ≤ 2 ^ 32 - 1 := by omega
      have hb : (v.bracket w).length ≤ 2 ^ 32 - 1 := by
        have : (v.bracket w).length = (v.bow ++ w ++ v.eow).length := rfl
        omega
      exact Nat.lt_of_le_of_lt (Nat.mul_le_mul ha hb) (by decide)
    have hu : usizeMax = 2 ^ 64 - 1 := rfl
    simp only [NGramsIndicesIter.sizeHint64, NGrams.sizeHint64, h4]
    rw [decide_eq_true (by omega)]
    simp only [Res.assert_true, Res.ok_bind, Res.pure_eq, Option.map_some]
    rw [Nat.min_eq_right (by omega)]
    rfl

/-- Hypotheses of `c85_capacity_partial`. -/
example := c85_capacity_partial (⟨['<'], ['>'], ⟨2, 3⟩, ⟨[]⟩, [], 2, 3⟩ : BucketSubwordVocab) ['a'] _ rfl (by decide)
  (by decide)

end

/-- C85 fails: the memory that is reserved is not bounded by the number of n-grams that are listed. Witness: in a
vocabulary without words and with n-grams of length 3 to 2^32 - 1, the word "a" has a single n-gram, `<a>`, and memory is
reserved for 12884901880 elements (each of which has at least 64 bytes). -/
theorem c85_bound_false :
    ¬ ∀ (ix : HashIndexer) (v : SubwordVocab HashIndexer) (w : Str) (l : List (Str × List Nat)) (cap : Nat),
      HashIndexer.new 2 = .ok ix → SubwordVocab.new [] 3 (2 ^ 32 - 1) ix = .ok v → v.ngramIndices w = .ok (some l) →
      v.ngramIndicesCapacity w = .ok (some cap) → cap ≤ 1000000000 * (l.length + 1) := by
  intro h
  have hix : HashIndexer.new 2 = .ok ⟨2, 3⟩ := rfl
  have hv : SubwordVocab.new [] 3 (2 ^ 32 - 1) (⟨2, 3⟩ : HashIndexer) = .ok ⟨['<'], ['>'], ⟨2, 3⟩, ⟨[]⟩, [], 3, 2 ^ 32 - 1⟩ := rfl
  obtain ⟨l, hl, hlen⟩ : ∃ l, SubwordVocab.ngramIndices
      (⟨['<'], ['>'], ⟨2, 3⟩, ⟨[]⟩, [], 3, 2 ^ 32 - 1⟩ : SubwordVocab HashIndexer) ['a'] = .ok (some l) ∧ l.length = 1 := by
    unfold SubwordVocab.ngramIndices
    rw [subwordIndicesWithNgrams_eq (HashIndexer.answers hix) _ (by decide) (by decide)]
    exact ⟨_, rfl, rfl⟩
  have := h _ _ _ _ _ hix hv hl (c85_capacity_partial _ _ _ hl (by decide) (by decide))
  rw [hlen] at this
  dsimp only at this
  revert this; decide +revert

/-- Three n-grams of the word "a"; memory for seven elements is reserved. -/
example : ∃ v l, SubwordVocab.new [] 2 3 (⟨2, 3⟩ : HashIndexer) = .ok v ∧ v.ngramIndices ['a'] = .ok (some l) ∧
    v.maxN < 2 ^ 32 ∧ l.length = 3 ∧ v.ngramIndicesCapacity ['a'] = .ok (some 7) :=
  ⟨_, _, rfl, rfl, by decide, rfl, rfl⟩

end FF
