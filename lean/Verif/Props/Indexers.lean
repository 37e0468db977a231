import Verif.Props.Subword
import Verif.Lemmas.ResList

/-!
# What indexers say about themselves

`Indexer::infallible` tells callers whether every n-gram has an index.
-/

namespace FF

/-- Specification: no n-gram is without an index. -/
def NeverEmpty {I : Type} [Indexer I] (ix : I) : Prop := ∀ g : NGram, Indexer.indexNgram ix g ≠ .ok []

/-- Some length is greater than that of each of finitely many strings. -/
theorem exists_longer (l : List Str) : ∃ n, ∀ s ∈ l, s.length < n := by
  induction l with
  | nil => exact ⟨0, by simp⟩
  | cons s l ih =>
    obtain ⟨n, hn⟩ := ih
    refine ⟨n + s.length + 1, ?_⟩
    intro t ht
    rcases List.mem_cons.mp ht with rfl | ht
    · omega
    · have := hn t ht; omega

/-- An explicit indexer has no index for some n-gram, whatever n-grams it was built from. -/
theorem explicit_not_neverEmpty (ix : ExplicitIndexer) : ¬ NeverEmpty ix := by
  obtain ⟨n, hn⟩ := exists_longer ix.index.keys
  intro h
  have hk : List.replicate n 'a' ∉ ix.index.keys := by
    intro hm
    have := hn _ hm
    rw [List.length_replicate] at this
    omega
  refine h (NGram.ofStr (List.replicate n 'a')) ?_
  have := HMap.get_eq_none_iff.mpr hk
  simp [Indexer.indexNgram, NGram.ofStr, this]

/-- **C101**. `infallible` is true exactly for the indexers that have an index for every n-gram: the bucket hash and
fastText indexers, and the floret indexer as its constructor makes it. An explicit indexer lacks some n-gram, whichever
it was built from. -/
theorem c101_infallible :
    (∀ ix : HashIndexer, Indexer.infallible ix = true ↔ NeverEmpty ix) ∧
    (∀ ix : FastTextIndexer, Indexer.infallible ix = true ↔ NeverEmpty ix) ∧
    (∀ nb nh seed (ix : FloretIndexer), FloretIndexer.new nb nh seed = .ok ix →
      (Indexer.infallible ix = true ↔ NeverEmpty ix)) ∧
    (∀ ix : ExplicitIndexer, Indexer.infallible ix = true ↔ NeverEmpty ix) := by
  refine ⟨fun ix => ⟨fun _ g h => ?_, fun _ => rfl⟩, fun ix => ⟨fun _ g h => ?_, fun _ => rfl⟩,
    fun nb nh seed ix hix => ⟨fun _ g h => ?_, fun _ => rfl⟩,
    fun ix => ⟨fun h => (Bool.noConfusion h), fun h => absurd h (explicit_not_neverEmpty ix)⟩⟩
  · cases h
  · have h : FastTextIndexer.index ix g = .ok [] := h
    unfold FastTextIndexer.index at h
    split at h <;> cases h
  · have h : FloretIndexer.indexWith murmur3 ix g = .ok [] := h
    unfold FloretIndexer.new at hix
    obtain ⟨_, h1, hix⟩ := Res.bind_eq_ok.mp hix
    obtain ⟨_, _, hix⟩ := Res.bind_eq_ok.mp hix
    cases hix
    unfold FloretIndexer.indexWith at h
    have hl := Res.mapM_length h
    rw [List.length_range, List.length_nil] at hl
    have hl : nh = 0 := hl.symm
    subst hl
    cases h1

/-- The hypothesis of `c101_infallible` on floret indexers holds for a concrete case; an n-gram that an explicit indexer
lacks. -/
example : (∃ ix, FloretIndexer.new 7 2 3 = .ok ix) ∧
    ∃ ix, ExplicitIndexer.new [['a'], ['b', 'c']] = .ok ix ∧ Indexer.indexNgram ix (NGram.ofStr ['a', 'a', 'a']) = .ok [] :=
  ⟨⟨_, rfl⟩, _, rfl, by decide⟩

end FF
