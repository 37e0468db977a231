import Verif.Model.Accessors
import Verif.Lemmas.NGrams
import Verif.Props.EmbeddingsIO
import Verif.Props.Vocab
import Verif.Lemmas.Text

/-!
# Accessors, replacing the metadata, the lazy subword iterator (C81)
-/

namespace FF

open Embeddings

/-! ## The lazy iterator -/

section Lazy
variable {I : Type} [Indexer I]

omit [Indexer I] in
theorem NGrams.collect_succ {fuel : Nat} {it : NGrams} {gs : List NGram} (h : it.collect fuel = .ok gs) :
    it.collect (fuel + 1) = .ok gs := by
  induction fuel generalizing it gs with
  | zero => cases h
  | succ fuel ih =>
    rw [NGrams.collect] at h ⊢
    obtain ⟨⟨g, it'⟩, h1, h⟩ := Res.bind_eq_ok.mp h
    cases g with
    | none =>
      cases h
      rw [h1]; rfl
    | some g =>
      obtain ⟨gs', h2, h⟩ := Res.bind_eq_ok.mp h
      cases h
      rw [h1, Res.ok_bind]
      dsimp only
      rw [ih h2]; rfl

theorem NGramsIndicesIter.collect_none (ix : I) {fuel : Nat} {it : NGrams} {gs : List NGram}
    (h : it.collect fuel = .ok gs) :
    NGramsIndicesIter.collect ix fuel ⟨none, it⟩ =
      gs.mapM fun g => do
        let idx ← Indexer.indexNgram ix g
        return (g.inner, idx) := by
  induction fuel generalizing it gs with
  | zero => cases h
  | succ fuel ih =>
    rw [NGrams.collect] at h
    obtain ⟨⟨g, it'⟩, h1, h⟩ := Res.bind_eq_ok.mp h
    cases g with
    | none =>
      cases h
      simp [NGramsIndicesIter.collect, NGramsIndicesIter.next, h1]
    | some g =>
      obtain ⟨gs', h2, h⟩ := Res.bind_eq_ok.mp h
      cases h
      rw [List.mapM_cons, ← ih h2]
      simp only [NGramsIndicesIter.collect, NGramsIndicesIter.next, h1, Res.ok_bind, bind_assoc, Res.pure_eq]

/-- **C81** (lazy iterator). Calling `next` of the subword iterator until it is exhausted gives the same list, or the same
panic, as listing the n-grams first and indexing them afterwards (which is how the other properties describe it). -/
theorem c81_lazy (ix : I) (s : Str) (minN maxN : Nat) :
    (do let it ← NGramsIndicesIter.new ix s minN maxN
        NGramsIndicesIter.collect ix (it.ngrams.fuel + 1) it) = subwordIndicesWithNgrams ix s minN maxN := by
  unfold NGramsIndicesIter.new subwordIndicesWithNgrams ngrams
  simp only [bind_assoc, pure_bind]
  by_cases hv : minN = 0 ∨ maxN < minN
  · have : NGrams.new s minN maxN = .panic := by
      unfold NGrams.new
      by_cases h0 : minN = 0
      · simp [h0]
      · have : ¬ minN ≤ maxN := by omega
        simp [h0, this]
    rw [this]; rfl
  · have hg := ngrams_eq_specFrom s minN maxN (by omega) (by omega)
    obtain ⟨it, h1, h2⟩ := Res.bind_eq_ok.mp (show (NGrams.new s minN maxN >>= fun it => it.collect it.fuel) = _ from hg)
    rw [h1]
    simp only [Res.ok_bind]
    rw [h2]
    simp only [Res.ok_bind]
    cases hs : Indexer.scope ix with
    | substrings =>
      simp only [List.nil_append]
      rw [NGramsIndicesIter.collect_none ix (NGrams.collect_succ h2)]
    | stringAndSubstrings =>
      simp only [List.singleton_append, List.mapM_cons]
      rw [NGramsIndicesIter.collect]
      simp only [NGramsIndicesIter.next, bind_assoc, Res.pure_eq, Res.ok_bind]
      rw [NGramsIndicesIter.collect_none ix h2]
      rfl

end Lazy

/-! ## Lookup results -/

/-- **C81** (kinds of indices). An index is that of a word or those of subwords, never both. -/
theorem c81_index (i : WordIndex) :
    (∃ n, i = .word n ∧ i.word? = some n ∧ i.subword? = none) ∨
      (∃ is, i = .subword is ∧ i.word? = none ∧ i.subword? = some is) := by
  cases i with
  | word n => exact .inl ⟨n, rfl, rfl, rfl⟩
  | subword is => exact .inr ⟨is, rfl, rfl, rfl⟩

/-! ## Embeddings -/

section Embeddings
variable {T V S F : Type}

/-- **C81** (parts). Embeddings can be taken apart and put together again. -/
theorem c81_parts [Vocab V] [Storage S F] (md : Option (Metadata T)) (v : V) (s : S) (n : Option (NdNorms F))
    (e : Embeddings T V S F) :
    newWithMaybeNorms md v s n = .ok e ↔
      Vocab.vocabLen v = .ok (shape s).1 ∧ e.intoParts = (md, v, s, n) := by
  rw [newWithMaybeNorms_eq_ok]
  constructor
  · rintro ⟨h, rfl⟩; exact ⟨h, rfl⟩
  · rintro ⟨h, h2⟩
    obtain ⟨a, b, c, d⟩ := e
    simp only [intoParts, Prod.mk.injEq] at h2
    obtain ⟨rfl, rfl, rfl, rfl⟩ := h2
    exact ⟨h, rfl⟩

/-- Embeddings that answer every query alike: sizes, words, single and batch lookups, norms, iteration, similarity and
analogy. -/
structure SameAnswers [Vocab V] [Storage S F] [StorageView S F] [Scalar F] [ScalarOrd F] (e e' : Embeddings T V S F) :
    Prop where
  len : e'.len = e.len
  dims : e'.dims = e.dims
  words : Vocab.words e'.getVocab = Vocab.words e.getVocab
  embedding : ∀ w, e'.embedding w = e.embedding w
  into : ∀ w t, e'.embeddingInto w t = e.embeddingInto w t
  batch : ∀ order ws, e'.embeddingBatch order ws = e.embeddingBatch order ws
  withNorm : ∀ w, e'.embeddingWithNorm w = e.embeddingWithNorm w
  norms : e'.getNorms = e.getNorms
  iter : e'.intoIter = e.intoIter
  iterNorms : e'.iterWithNorms = e.iterWithNorms
  similarity : ∀ w limit batch, e'.wordSimilarity w limit batch = e.wordSimilarity w limit batch
  embeddingSimilarity : ∀ q limit skip batch,
    e'.embeddingSimilarityMasked q limit skip batch = e.embeddingSimilarityMasked q limit skip batch
  analogy : ∀ a b c ra rb rc limit batch,
    e'.analogyMasked a b c ra rb rc limit batch = e.analogyMasked a b c ra rb rc limit batch

/-- **C81** (replacing the metadata). `set_metadata` returns the previous metadata, `metadata` then returns the new ones,
and no query is answered differently; putting the previous metadata back restores the embeddings. -/
theorem c81_set_metadata [Vocab V] [Storage S F] [StorageView S F] [Scalar F] [ScalarOrd F] (e : Embeddings T V S F)
    (m : Option (Metadata T)) :
    (e.setMetadata m).2 = e.getMetadata ∧ (e.setMetadata m).1.getMetadata = m ∧
    (e.setMetadata m).1.intoParts = (m, e.getVocab, e.getStorage, e.getNorms) ∧
    ((e.setMetadata m).1.setMetadata (e.setMetadata m).2).1 = e ∧ SameAnswers e (e.setMetadata m).1 := by
  refine ⟨rfl, rfl, rfl, rfl, ?_⟩
  constructor <;> intros <;> rfl

/-- **C81** (changing the metadata in place). -/
theorem c81_metadata_mut [Vocab V] [Storage S F] [StorageView S F] [Scalar F] [ScalarOrd F] (e : Embeddings T V S F)
    (f : T → T) :
    ((e.metadataMut (·.derefMut f)).getMetadata.map Metadata.deref = e.getMetadata.map fun m => f m.deref) ∧
    SameAnswers e (e.metadataMut (·.derefMut f)) := by
  refine ⟨?_, ?_⟩
  · obtain ⟨m, _, _, _⟩ := e
    cases m <;> rfl
  · constructor <;> intros <;> rfl

/-- **C81** (writing after replacing the metadata). The file that is written after `set_metadata` is read back as the same
embeddings with the new metadata, and `read_metadata` returns the new metadata. -/
theorem c81_written [Toml T] [ReadChunk V] [WriteChunk V] [ReadChunk S] [WriteChunk S] [VocabChunk V] [StorageChunk S]
    [Storage S F32] (e : Embeddings T V S F32)
    (he : Storable e) (hv : LenCorrect e.vocab) (hs : LenCorrect e.storage) (t : Option T)
    (ht : ∀ x ∈ t, Toml.parse (Toml.print x) = some x ∧ strLen (Toml.print x) ≤ isizeMax) :
    let e' := (e.setMetadata (t.map Metadata.new)).1
    (e'.write 0).status = .ok () ∧ (read (e'.write 0).bytes 0 : Res (Embeddings T V S F32)) = .ok e' ∧
    ∃ p, (readOptMetadata : Rd (Option (Metadata T))) (e'.write 0).bytes 0 = .ok (t.map Metadata.new, p) := by
  intro e'
  have hm : ∀ m ∈ e'.metadata, RoundTrips m := by
    intro m hm
    obtain ⟨x, hx, rfl⟩ := Option.map_eq_some_iff.mp (show t.map Metadata.new = some m from hm)
    exact c14_metadata _ (ht x hx).1 (ht x hx).2
  have he' : Storable e' := ⟨hm, he.vocab, he.storage, he.norms⟩
  have h1 := c15_round_trip e' he' [] [] (by intro _; decide)
  have h2 := c20_read_metadata e' hm hv hs [] []
  simp only [List.length_nil, List.nil_append, List.append_nil] at h1 h2
  exact ⟨h1.1, h1.2, h2⟩

end Embeddings

/-! ## Constructors and accessors -/

/-- **C81** (vocabularies). The accessors of a subword vocabulary return what the constructor was given; without markers given,
they are `<` and `>`. The accessors of a floret indexer return its parameters. -/
theorem c81_vocab {I : Type} [Indexer I] (ws : List Str) (m M : Nat) (ix : I) (bow eow : Str) (v : SubwordVocab I) :
    (SubwordVocab.newWithBoundaries ws m M ix bow eow = .ok v → v.getBow = bow ∧ v.getEow = eow ∧ v.getIndexer = ix ∧
      v.getMinN = m ∧ v.getMaxN = M ∧ Vocab.words v = ws) ∧
    (SubwordVocab.new ws m M ix = .ok v → v.getBow = ['<'] ∧ v.getEow = ['>'] ∧ v.getIndexer = ix ∧
      v.getMinN = m ∧ v.getMaxN = M ∧ Vocab.words v = ws) ∧
    ∀ (n h : Nat) (seed : UInt32) (fx : FloretIndexer), FloretIndexer.new n h seed = .ok fx → fx.params = (n, h, seed) := by
  have key : ∀ bow eow, SubwordVocab.newWithBoundaries ws m M ix bow eow = .ok v → v.getBow = bow ∧ v.getEow = eow ∧
      v.getIndexer = ix ∧ v.getMinN = m ∧ v.getMaxN = M ∧ Vocab.words v = ws := by
    intro bow eow h
    unfold SubwordVocab.newWithBoundaries at h
    obtain ⟨_, -, h⟩ := Res.bind_eq_ok.mp h
    obtain ⟨_, -, h⟩ := Res.bind_eq_ok.mp h
    obtain ⟨_, -, h⟩ := Res.bind_eq_ok.mp h
    cases h
    exact ⟨rfl, rfl, rfl, rfl, rfl, rfl⟩
  refine ⟨key bow eow, key ['<'] ['>'], fun n h seed fx hx => ?_⟩
  unfold FloretIndexer.new at hx
  obtain ⟨_, -, hx⟩ := Res.bind_eq_ok.mp hx
  obtain ⟨_, -, hx⟩ := Res.bind_eq_ok.mp hx
  cases hx
  rfl

/-- **C81** (n-grams). The length that an n-gram returns is its number of characters. -/
theorem c81_char_len (s : Str) (m M : Nat) (gs : List NGram) (h : ngrams s m M = .ok gs) (g : NGram) (hg : g ∈ gs) :
    g.charLength = g.asStr.length := by
  by_cases hm : m = 0 ∨ M < m
  · rw [ngrams_panic s m M hm] at h
    cases h
  · rw [ngrams_eq_specFrom s m M (by omega) (by omega)] at h
    cases h
    clear hm
    induction s with
    | nil => simp [specFrom] at hg
    | cons c s ih =>
      rw [specFrom, List.mem_append] at hg
      rcases hg with hg | hg
      · obtain ⟨n, hn, rfl⟩ := List.mem_map.mp hg
        have := (mem_down.mp hn).2
        show n = ((c :: s).take n).length
        simp only [List.length_take, List.length_cons]
        omega
      · exact ih hg

/-- **C81** (matrices and norms). A matrix or norms, wrapped and unwrapped, are the same; a matrix changed in place is
afterwards what the change gave, and its rows are the rows of that. -/
theorem c81_wrapped {F : Type} (m : Mat F) (ns : List F) (f : Mat F → Mat F) :
    (NdArray.new m).intoArray = m ∧ (NdNorms.new ns).deref = ns ∧ ((NdArray.new m).viewMut f).intoArray = f m ∧
    shape ((NdArray.new m).viewMut f) = ((f m).rows.length, (f m).cols) ∧
    ∀ i, (Storage.embedding ((NdArray.new m).viewMut f) i : Res (List F)) = Res.unwrap (f m).rows[i]? :=
  ⟨rfl, rfl, rfl, rfl, fun _ => rfl⟩

namespace Embeddings

/-- **C81** (embeddings). The accessors return the parts that the constructors were given. -/
theorem c81_accessors {T V S F : Type} [Vocab V] [Storage S F] (md : Option (Metadata T)) (v : V) (s : S) (n : NdNorms F)
    (e : Embeddings T V S F) :
    (Embeddings.new md v s n = .ok e → e.getMetadata = md ∧ e.getVocab = v ∧ e.getStorage = s ∧ e.getNorms = some n) ∧
    (newWithMaybeNorms md v s none = .ok e → e.getMetadata = md ∧ e.getVocab = v ∧ e.getStorage = s ∧ e.getNorms = none) := by
  constructor
  · intro h
    unfold Embeddings.new at h
    obtain ⟨_, -, h⟩ := Res.bind_eq_ok.mp h
    obtain ⟨-, rfl⟩ := newWithMaybeNorms_eq_ok.mp h
    exact ⟨rfl, rfl, rfl, rfl⟩
  · intro h
    obtain ⟨-, rfl⟩ := newWithMaybeNorms_eq_ok.mp h
    exact ⟨rfl, rfl, rfl, rfl⟩

end Embeddings

/-! ## Examples -/

/-- The hypotheses of `c81_lazy` are none; here an iterator with the whole word first. -/
example : ((NGramsIndicesIter.new (⟨2, 7, 3⟩ : FloretIndexer) "ab".toList 1 2) >>= fun it =>
      NGramsIndicesIter.collect (⟨2, 7, 3⟩ : FloretIndexer) (it.ngrams.fuel + 1) it).map (·.map (·.1)) =
    .ok ["ab".toList, "ab".toList, "a".toList, "b".toList] := by
  decide +kernel

attribute [local instance] exampleToml in
/-- The hypotheses of `c81_written` can be met. -/
example : Storable exampleEmbeddings ∧ LenCorrect exampleEmbeddings.vocab ∧ LenCorrect exampleEmbeddings.storage ∧
    ∀ x ∈ some "b = 2".toList, Toml.parse (Toml.print x) = some x ∧ strLen (Toml.print x) ≤ isizeMax :=
  ⟨exampleEmbeddings_storable, c04_simple _, c05_array _ (by intro r hr; revert r; decide), by
    rintro x ⟨⟩; exact ⟨rfl, by decide +kernel⟩⟩

/-- The hypotheses of `c81_parts` can be met. -/
example : Vocab.vocabLen (VocabWrap.simple ⟨indexMap [['a'], ['b']], [['a'], ['b']]⟩) =
    .ok (shape (NdArray.new ⟨1, [[(5 : F32)], [6]]⟩)).1 := by decide +kernel

/-- The hypotheses of `c81_vocab` can be met. -/
example : (∃ v, SubwordVocab.newWithBoundaries [['a'], ['b']] 2 3 (⟨2, 7, 3⟩ : FloretIndexer) ['{'] ['}'] = .ok v ∧
      v.getMaxN = 3) ∧
    (∃ v, SubwordVocab.new [['a'], ['b']] 2 3 (⟨2, 7, 3⟩ : FloretIndexer) = .ok v ∧ v.getMaxN = 3) ∧
    ∃ fx, FloretIndexer.new 2 3 7 = .ok fx ∧ fx.params = (2, 3, 7) :=
  ⟨⟨_, rfl, rfl⟩, ⟨_, rfl, rfl⟩, ⟨_, rfl, rfl⟩⟩

/-- The hypotheses of `c81_char_len` can be met, by n-grams with more bytes than characters. -/
example : (ngrams ['a', 'é'] 2 2).map (·.map fun g => (g.asStr, g.charLength)) = .ok [(['a', 'é'], 2)] := by decide +kernel

/-- The hypotheses of `c81_accessors` can be met. -/
example : ∃ e : Embeddings Str SimpleVocab (NdArray F32) F32,
    Embeddings.new none (⟨indexMap [['a'], ['b']], [['a'], ['b']]⟩ : SimpleVocab) (NdArray.new ⟨1, [[(5 : F32)], [6]]⟩)
      (NdNorms.new [1, 2]) = .ok e ∧ e.getNorms = some (NdNorms.new [1, 2]) := ⟨_, rfl, rfl⟩

end FF
