import Verif.Props.History

/-!
# Files of converted embeddings with mapped storages (C84)
-/

namespace FF
open Storage

/-- **C84** (mapped storages). The same if the storage is memory mapped from data from which a storage can be read. -/
theorem c84_mapped {T I : Type} [Toml T] [BucketIndexer I] [Scalar F32] (e : Embeddings T (SubwordVocab I) StorageWrap F32)
    (ws : List Str) (m M : Nat) (ix : I) (bow eow : Str)
    (hv : SubwordVocab.newWithBoundaries ws m M ix bow eow = .ok e.vocab) (h : Str → Nat)
    (hs : SingleIndex ix m M h) (hrows : Vocab.vocabLen e.vocab = .ok (shape e.storage).1)
    (d : Bytes) (pos p : Nat) (a : StorageWrap) (hr : (readChunk : Rd StorageWrap) d pos = .ok (a, p))
    (hmm : mmapStorageWrap d pos = .ok (e.storage, p)) (hst : StorableStorage a) (hnw : 24 * ws.length ≤ isizeMax)
    (hwl : ∀ w ∈ ws, strLen bow + strLen w + strLen eow < 2 ^ 32)
    (hng : ∀ gs : List Str, gs.Nodup → (∀ g ∈ gs, ∃ w ∈ ws, g ∈ bracketedNGrams bow w eow m M) →
      32 * gs.length ≤ isizeMax)
    (hm : m < 2 ^ 32) (hM : M < 2 ^ 32) (hn : ∀ n ∈ e.norms, 4 * n.inner.length ≤ isizeMax)
    (order : List (Str × Nat) → List (Str × Nat)) (hord : ∀ l, (order l).Perm l)
    (order2 : List (Nat × Nat) → List (Nat × Nat)) (hord2 : ∀ l, (order2 l).Perm l) :
    ∃ e' : Embeddings T ExplicitSubwordVocab StorageWrap F32, e.toExplicit order order2 = .ok e' ∧
      (e'.write 0).status = .ok () ∧
      (Embeddings.read (e'.write 0).bytes 0 : Res (Embeddings T ExplicitSubwordVocab StorageWrap F32)) = .ok e' ∧
      (Embeddings.read (e'.write 0).bytes 0 : Res (Embeddings T VocabWrap StorageWrap F32)) =
        .ok ⟨none, e'.storage, .explicit e'.vocab, e'.norms⟩ ∧
      (∃ e'' : Embeddings T ExplicitSubwordVocab StorageWrap F32,
        Embeddings.mmap mmapStorageWrap (e'.write 0).bytes 0 = .ok e'' ∧
        e''.metadata = none ∧ e''.vocab = e'.vocab ∧ e''.norms = e.norms ∧ SameRows e''.storage e'.storage) ∧
      Vocab.words e'.vocab = ws ∧
      ∀ w ∈ ws, e'.embedding w = e.embedding w ∧ e'.embeddingWithNorm w = e.embeddingWithNorm w :=
  have hu : SameUse e.storage a := .of_mapped hr hmm
  toExplicit_file e ws m M ix bow eow hv h hs hrows a hst hu.rows.1 hu.clone hnw hwl hng hm hM hn order hord order2 hord2

attribute [local instance] exampleScalar exampleToml in
/-- `c84_mapped` applies to a concrete case: the matrix of `exampleMarkers`, mapped from the bytes of its chunk. -/
example : ∃ (s : StorageWrap) (e' : Embeddings Str ExplicitSubwordVocab StorageWrap F32),
    mmapStorageWrap (writeChunk (StorageWrap.ndArray exampleMarkers.storage) 0).bytes 0 =
      .ok (s, (writeChunk (StorageWrap.ndArray exampleMarkers.storage) 0).bytes.length) ∧
    (⟨some ⟨['a']⟩, s, exampleMarkers.vocab, some ⟨[7, 8]⟩⟩ : Embeddings Str _ StorageWrap F32).toExplicit List.reverse List.reverse =
      .ok e' ∧
    (Embeddings.read (e'.write 0).bytes 0 : Res (Embeddings Str ExplicitSubwordVocab StorageWrap F32)) = .ok e' := by
  have hst : StorableStorage (.ndArray exampleMarkers.storage) :=
    ⟨(by unfold Mat.WF; decide), by decide, by decide, by decide⟩
  have hr := (hst.roundTrips [] []).2
  simp only [List.length_nil, List.nil_append, List.append_nil, Nat.zero_add] at hr
  obtain ⟨s, hm, hsame, -⟩ := c21_wrap _ _ _ _ hr
  have hv : SubwordVocab.newWithBoundaries [['a'], ['b', 'b']] 2 2 (⟨2, 3⟩ : HashIndexer) ['['] [']'] =
    .ok exampleMarkers.vocab := rfl
  have hrows : Vocab.vocabLen exampleMarkers.vocab = .ok (shape s).1 := by rw [hsame.1]; rfl
  obtain ⟨e', h1, _, h2, _⟩ := c84_mapped (⟨some ⟨['a']⟩, s, exampleMarkers.vocab, some ⟨[7, 8]⟩⟩ : Embeddings Str _ StorageWrap F32)
    [['a'], ['b', 'b']] 2 2 _ ['['] [']'] hv _
    (HashIndexer.singleIndex (e := 2) rfl (by decide) (by decide)) hrows _ _ _ _ hr hm hst (by decide) (by decide) (by
      intro gs hn hg
      have hsub : gs ⊆ [['[', 'a'], ['a', ']'], ['[', 'b'], ['b', 'b'], ['b', ']']] := by
        intro g h
        obtain ⟨w, hw, hgw⟩ := hg g h
        have : ∀ w ∈ [['a'], ['b', 'b']], ∀ g ∈ bracketedNGrams ['['] w [']'] 2 2,
          g ∈ [['[', 'a'], ['a', ']'], ['[', 'b'], ['b', 'b'], ['b', ']']] := by decide
        exact this w hw g hgw
      have h5 : gs.length ≤ 5 := length_le_of_nodup_subset hn hsub
      have : (160 : Nat) ≤ isizeMax := by decide
      omega)
    (by decide) (by decide) (by rintro _ ⟨⟩; decide) List.reverse List.reverse_perm List.reverse List.reverse_perm
  exact ⟨s, e', hm, h1, h2⟩

end FF
