import Verif.Props.Accepted
import Verif.Props.EmbeddingsIO
import Verif.Lemmas.ResList

/-!
# C87: whatever is read can be written, and is read back

C15 starts from embeddings that meet certain conditions (`Storable`). Here it is shown that whatever the readers return
meets them, whatever the data. So there is nothing that can be read but not be written, and the file that is written is a
normal form of the file that was read: reading and writing once more changes nothing.
-/

namespace FF

open Rd Layout Embeddings

/-- Whatever is read as an `R`, from any data, survives a further round trip. -/
def Stable (R : Type) [ReadChunk R] [WriteChunk R] : Prop :=
  ∀ (d : Bytes) (pos : Nat) (a : R) (q : Nat), (readChunk : Rd R) d pos = .ok (a, q) → RoundTrips a

theorem stable_of {R : Type} [ReadChunk R] [WriteChunk R] {L : Nat → R → Pat → Prop} (hp : Parses (readChunk : Rd R) L)
    (h : ∀ pos a pat, L pos a pat → RoundTrips a) : Stable R := by
  intro d pos a q hr
  obtain ⟨pat, hL, _⟩ := (hp d pos a q).mp hr
  exact h _ _ _ hL

theorem storableVocab_of_pat {pos : Nat} {w : VocabWrap} {pat : Pat} (h : VocabPat pos w pat) : StorableVocab w := by
  cases w with
  | simple v =>
    obtain ⟨_, ws, _, h1, h2, h3, _⟩ := h
    exact ⟨ws, h3, h2, h1⟩
  | bucket v =>
    obtain ⟨_, m, M, e, ws, ix, _, hm, hM, _, h1, h2, h3, h4, _⟩ := h
    exact ⟨e, ix, ws, m, M, h3, h4, ⟨h2, h1⟩, hm, hM⟩
  | fastText v =>
    obtain ⟨_, m, M, e, ws, ix, _, hm, hM, _, h1, h2, h3, h4, _⟩ := h
    exact ⟨e, ix, ws, m, M, h3, h4, ⟨h2, h1⟩, hm, hM⟩
  | explicit v =>
    obtain ⟨_, m, M, ws, gs, r, _, hm, hM, h1, h2, h3, h4, h5, h6, _⟩ := h
    obtain ⟨ix, o2n⟩ := r
    have hk : ix.ngrams = gs.map (·.1) := by
      rw [newWithIndices_eq] at h5
      split at h5
      · rw [← (Prod.mk.inj (Res.ok.inj h5)).1]
      · cases h5
    refine ⟨ix, ws, m, M, .inr ⟨gs, o2n, h5⟩, h6, ⟨h3, h1⟩, ?_, ?_, hm, hM⟩
    · rw [hk]
      intro g hg
      obtain ⟨x, hx, rfl⟩ := List.mem_map.mp hg
      exact (h4 x hx).1
    · rw [hk, List.length_map]; exact h2
  | floret v =>
    obtain ⟨_, m, M, nb, nh, seed, bow, eow, ix, _, hm, hM, _, _, _, _, h1, h2, h3, h4, _⟩ := h
    exact ⟨nb, nh, _, ix, m, M, bow, eow, h3, h4, h1, h2, hm, hM⟩

theorem storableStorage_of_pat {pos : Nat} {w : StorageWrap} {pat : Pat} (h : StoragePat pos w pat) :
    StorableStorage w := by
  cases w with
  | ndArray a =>
    obtain ⟨_, _, _, hw, hr, hc, ht, _⟩ := h
    have h2 : ¬ isizeMax < 4 * (a.inner.nrows * (a.inner.cols * 1)) := fun h => ht (.inr h)
    have h1 : ¬ isizeMax < ([a.inner.nrows, a.inner.cols].filter (· ≠ 0)).prod := fun h => ht (.inl h)
    have hi : isizeMax = 2 ^ 63 - 1 := rfl
    rw [Nat.mul_one] at h2
    refine ⟨hw, hc, ?_, by omega⟩
    by_cases h0 : a.inner.cols = 0
    · rw [h0] at h1
      by_cases h3 : a.inner.nrows = 0
      · omega
      · simp [h3] at h1; omega
    · have := Nat.le_mul_of_pos_right a.inner.nrows (Nat.pos_of_ne_zero h0)
      omega
  | quantized a =>
    obtain ⟨_, _, _, _, _, _, _, hw, _, _, h1, h2, h3, h4, h5, h6, h7, _⟩ := h
    have hi : isizeMax = 2 ^ 63 - 1 := rfl
    have big : ∀ s dims, ¬ TooBig s dims → s * dims.prod ≤ isizeMax := fun s dims h =>
      Nat.le_of_not_lt fun h' => h (.inr h')
    have hs : 0 < a.quantizer.subDim := Nat.pos_of_ne_zero hw.pq.sub
    refine ⟨hw, ?_, h1, h2, fun h => ?_, ?_, fun h => ?_, ?_⟩
    · have := Nat.le_mul_of_pos_right a.quantizer.quantizers.length hs
      unfold Pq.quantizedLen; omega
    · simpa [Pq.reconstructedLen] using big _ _ (h4 h)
    · simpa [Pq.quantizedLen] using big _ _ h5
    · simpa [Mat.nrows] using big _ _ (h6 h)
    · simpa [Mat.nrows, Pq.quantizedLen] using big _ _ h7
  | mmapArray a => exact h.elim
  | mmapQuantized a => exact h.elim

/-- **C87** (vocabularies). Vocabularies that were read can be written and are then read back unchanged. -/
theorem c87_vocab : Stable SimpleVocab ∧ Stable BucketSubwordVocab ∧ Stable FastTextSubwordVocab ∧
    Stable ExplicitSubwordVocab ∧ Stable FloretSubwordVocab ∧ Stable VocabWrap := by
  refine ⟨stable_of c67_simple ?_, stable_of c67_bucket ?_, stable_of c67_fasttext ?_, stable_of c67_explicit ?_,
    stable_of c67_floret ?_, stable_of c67_vocab fun _ _ _ h => (storableVocab_of_pat h).roundTrips⟩
  · intro pos v pat h
    obtain ⟨ws, h1, h2, h3⟩ := storableVocab_of_pat (pos := pos) (w := .simple v) h
    exact c07_simple ws v h1 h2 h3
  · intro pos v pat h
    obtain ⟨e, ix, ws, m, M, h1, h2, h3, h4, h5⟩ := storableVocab_of_pat (pos := pos) (w := .bucket v) h
    exact c08_bucket_partial e ix h1 ws m M v h2 h3.1 h3.2 h4 h5
  · intro pos v pat h
    obtain ⟨e, ix, ws, m, M, h1, h2, h3, h4, h5⟩ := storableVocab_of_pat (pos := pos) (w := .fastText v) h
    exact c08_fasttext_partial e ix h1 ws m M v h2 h3.1 h3.2 h4 h5
  · intro pos v pat h
    obtain ⟨ix, ws, m, M, h1, h2, h3, h4, h5, h6, h7⟩ := storableVocab_of_pat (pos := pos) (w := .explicit v) h
    exact c09_explicit_partial ix h1 ws m M v h2 h3.1 h3.2 h4 h5 h6 h7
  · intro pos v pat h
    obtain ⟨nb, nh, seed, ix, m, M, bow, eow, h1, h2, h3, h4, h5, h6⟩ := storableVocab_of_pat (pos := pos) (w := .floret v) h
    exact c10_floret_partial nb nh seed ix h1 m M bow eow v h2 h3 h4 h5 h6

/-- **C87** (storages). Storages that were read can be written and are then read back bit by bit. -/
theorem c87_storage : Stable (NdArray F32) ∧ Stable (QuantizedArray F32) ∧ Stable StorageWrap ∧
    Stable StorageViewWrap := by
  have ha : Stable (NdArray F32) := by
    refine stable_of c67_array fun pos a pat h => ?_
    obtain ⟨h1, h2, h3, h4⟩ := storableStorage_of_pat (pos := pos) (w := .ndArray a) h
    exact c11_array a h1 h2 h3 h4
  refine ⟨ha, stable_of c67_quantized fun pos a pat h => ?_,
    stable_of c67_storage fun _ _ _ h => (storableStorage_of_pat h).roundTrips, ?_⟩
  · obtain ⟨h1, h2⟩ := storableStorage_of_pat (pos := pos) (w := .quantized a) h
    exact c12_quantized a h1 h2
  · intro d pos a q h
    by_cases hu : u32At d pos = some 2
    · have h2 := c16_storage_view.1 d pos hu
      rw [show readStorageViewWrap d pos = _ from h] at h2
      obtain ⟨⟨x, p⟩, hx, hxe⟩ := Res.map_eq_ok.mp h2.symm
      obtain ⟨rfl, rfl⟩ := Prod.mk.inj hxe
      refine (ha d pos x p hx).wrap (fun _ => rfl) c16_storage_view.1 fun d pos a p h => ?_
      obtain ⟨_, _, h1, _⟩ := Rd.bind_ok.mp (show readNdArray d pos = _ from h)
      exact ensure_ok (i := .ndArray) h1
    · have h2 := c16_storage_view.2.1 d pos
      have h : readStorageViewWrap d pos = _ := h
      cases hc : u32At d pos with
      | none => rw [h2.1 hc] at h; cases h
      | some c =>
        rw [h2.2 c hc (by intro h0; simp at h0; exact hu (by rw [hc, h0]))] at h
        cases h

/-- **C87** (norms). Norms that were read are stable. -/
theorem c87_norms : Stable (NdNorms F32) := by
  refine stable_of c67_norms fun pos n pat h => ?_
  obtain ⟨_, _, _, _, ht, _⟩ := h
  refine c13_norms n (Nat.le_of_not_lt fun h => ht (.inr ?_))
  simpa using h

/-- **C87.** Whatever embeddings are read from whatever data, they can be written, at any position, and the written file is
read as the same embeddings; the file is in normal form, as reading and writing it again gives the same bytes. Assumed:
that the TOML library reads back what it prints for the metadata. -/
theorem c87_rewrite {T V S : Type} [Toml T] [WriteChunk V] [ReadChunk V] [VocabChunk V] [WriteChunk S] [ReadChunk S]
    [StorageChunk S] (hV : Stable V) (hS : Stable S) (d : Bytes) (pos : Nat) (e : Embeddings T V S F32)
    (h : read d pos = .ok e) (hm : ∀ m ∈ e.metadata, Toml.parse (Toml.print m.inner) = some m.inner ∧
      strLen (Toml.print m.inner) ≤ isizeMax) (pre : Bytes) :
    (e.write pre.length).status = .ok () ∧
    (read (pre ++ (e.write pre.length).bytes) pre.length : Res (Embeddings T V S F32)) = .ok e ∧
    ∀ e' : Embeddings T V S F32, read (pre ++ (e.write pre.length).bytes) pre.length = .ok e' →
      e'.write pre.length = e.write pre.length := by
  have he : Storable e := by
    rw [read_eq] at h
    obtain ⟨⟨⟨md, v, s⟩, p⟩, h1, h⟩ := Res.bind_eq_ok.mp h
    obtain ⟨n, h2, h⟩ := Res.bind_eq_ok.mp h
    obtain ⟨⟨⟨md', v'⟩, p1⟩, h3, h1⟩ := Res.bind_eq_ok.mp h1
    obtain ⟨⟨s', p2⟩, h4, h1⟩ := Res.bind_eq_ok.mp h1
    cases h1
    cases h
    refine ⟨fun m h => c14_metadata m (hm m h).1 (hm m h).2, ?_, hS _ _ _ _ h4, ?_⟩
    · unfold readHead at h3
      obtain ⟨md2, p3, h5, h3⟩ := Rd.bind_ok.mp h3
      obtain ⟨v2, p4, h6, h3⟩ := Rd.bind_ok.mp h3
      cases h3
      exact hV _ _ _ _ h6
    · intro m hmem
      cases n with
      | none => cases hmem
      | some n =>
        cases hmem
        have : readNorms d p2 = .ok n := by
          unfold orNone at h2
          cases hr : readNorms d p2 with
          | ok x => rw [hr] at h2; cases h2; rfl
          | err => rw [hr] at h2; cases h2
          | panic => rw [hr] at h2; cases h2
        exact c87_norms d p2 n.1 n.2 this
  have h1 := c15_round_trip e he pre [] (fun _ => by decide)
  rw [List.append_nil] at h1
  refine ⟨h1.1, h1.2, fun e' h2 => ?_⟩
  rw [h1.2] at h2
  cases h2; rfl

/-- **C87** (memory mapping). The same holds for files that are opened with the storage memory mapped. -/
theorem c87_mapped {T V : Type} [Toml T] [WriteChunk V] [ReadChunk V] [VocabChunk V] [Scalar F32] (hV : Stable V)
    (d : Bytes) (pos : Nat) (e : Embeddings T V StorageWrap F32) (h : read d pos = .ok e)
    (hm : ∀ m ∈ e.metadata, Toml.parse (Toml.print m.inner) = some m.inner ∧
      strLen (Toml.print m.inner) ≤ isizeMax) (pre : Bytes) :
    ∃ e' : Embeddings T V StorageWrap F32, mmap mmapStorageWrap d pos = .ok e' ∧
      (e'.write pre.length).status = .ok () ∧
      (read (pre ++ (e'.write pre.length).bytes) pre.length : Res (Embeddings T V StorageWrap F32)) = .ok e := by
  obtain ⟨e', h1, -, -, -, -, h2⟩ := c21_embeddings d pos e h
  obtain ⟨h3, h4, -⟩ := c87_rewrite hV c87_storage.2.2.1 d pos e h hm pre
  rw [← (h2 pre.length).1] at h3 h4
  exact ⟨e', h1, h3, h4⟩

/-- The embeddings that are read from `exampleFile`. -/
def exampleFileEmbeddings : Embeddings Str SimpleVocab (NdArray F32) F32 :=
  ⟨none, ⟨⟨1, [[0x3f800000], [0x40000000]]⟩⟩, ⟨createIndices [['a'], ['b', 'c']], [['a'], ['b', 'c']]⟩, none⟩

/-- A file that is not in normal form (wrong lengths, padding that is not zero, an identifier that is not used) is read, and
what is written for it is another file, which is read as the same embeddings. -/
example : (@Embeddings.write _ _ _ exampleToml _ _ exampleFileEmbeddings 0).bytes ≠ exampleFile ∧
    @Embeddings.read _ SimpleVocab (NdArray F32) exampleToml _ _
      (@Embeddings.write _ _ _ exampleToml _ _ exampleFileEmbeddings 0).bytes 0 =
      @Embeddings.read _ SimpleVocab (NdArray F32) exampleToml _ _ exampleFile 0 := by
  have h0 : @Embeddings.read _ SimpleVocab (NdArray F32) exampleToml _ _ exampleFile 0 = .ok exampleFileEmbeddings :=
    exampleFile_read
  have h := @c87_rewrite _ _ _ exampleToml _ _ _ _ _ _ c87_vocab.1 c87_storage.1 exampleFile 0 _ h0
    (by intro m h; cases h) []
  refine ⟨by decide +kernel, ?_⟩
  rw [h0]
  exact h.2.1

attribute [local instance] exampleToml in
/-- `c87_mapped` applied to the example with metadata. -/
example [Scalar F32] := c87_mapped c87_vocab.2.2.2.2.2 (exampleEmbeddings.write 0).bytes 0 exampleEmbeddings
  (by decide +kernel) (by intro m h; cases h; exact ⟨rfl, by decide +kernel⟩) [1, 2, 3]

end FF
