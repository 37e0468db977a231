import Verif.Props.Position

/-!
# C89: where in a file the data lies

What is read should not depend on the position of the data. It does not if the data is moved by a multiple of four bytes; for
headers, metadata and vocabularies it does not at all.
-/

namespace FF

open Rd Embeddings

/-- With any bytes in front, as many as a multiple of `m`, and started behind them, the reader gives the same result, and stops
as far behind the start. -/
def Moves (m : Nat) {α : Type} (p : Rd α) : Prop :=
  ∀ pre d pos, pre.length % m = 0 → p (pre ++ d) (pre.length + pos) = (p d pos).map fun r => (r.1, pre.length + r.2)

namespace Moves
variable {α β : Type} {m : Nat}

theorem pure (a : α) : Moves m (pure a : Rd α) := fun _ _ _ _ => rfl
theorem fail (e : Err) : Moves m (fail e : Rd α) := fun _ _ _ _ => rfl
theorem lift (r : Res α) : Moves m (lift r) := fun _ _ _ _ => by cases r <;> rfl
theorem alloc (s n : Nat) : Moves m (alloc s n) := lift _
theorem allocArray (size : Nat) (dims : List Nat) : Moves m (allocArray size dims) := lift _

theorem bind {p : Rd α} {f : α → Rd β} (hp : Moves m p) (hf : ∀ a, Moves m (f a)) : Moves m (p >>= f) := by
  intro pre d pos h
  rw [bind_apply, bind_apply, hp pre d pos h]
  cases p d pos with
  | ok r => exact hf r.1 pre d r.2 h
  | err e => rfl
  | panic => rfl

theorem readExact (n : Nat) : Moves m (readExact n) := by
  intro pre d pos _
  unfold Rd.readExact
  by_cases h0 : n = 0
  · rw [if_pos h0, if_pos h0]; rfl
  · rw [if_neg h0, if_neg h0]
    by_cases h1 : pos + n ≤ d.length
    · rw [if_pos h1, if_pos (by simp only [List.length_append]; omega)]
      rw [List.drop_append, List.drop_eq_nil_of_le (by omega)]
      simp [Res.map, Nat.add_assoc]
    · rw [if_neg h1, if_neg (by simp only [List.length_append]; omega)]
      rfl

theorem readU32 : Moves m readU32 := (readExact 4).bind fun _ => pure _
theorem readU64 : Moves m readU64 := (readExact 8).bind fun _ => pure _
theorem readF32s (n) : Moves m (readF32s n) := (readExact _).bind fun _ => pure _

theorem replicateM {p : Rd α} (hp : Moves m p) (n : Nat) : Moves m (replicateM n p) := by
  induction n with
  | zero => exact pure _
  | succ n ih => exact hp.bind fun _ => ih.bind fun _ => pure _

theorem readChunkId : Moves m readChunkId := readU32.bind fun _ => lift _

theorem peekChunkId : Moves m peekChunkId := by
  intro pre d pos h
  unfold FF.peekChunkId
  rw [readChunkId pre d pos h]
  cases FF.readChunkId d pos <;> rfl

theorem ensureChunkType (i : ChunkId) : Moves m (ensureChunkType i) := by
  refine readChunkId.bind fun c => ?_
  split
  · exact fail _
  · exact pure _

theorem ensureDataType (i : Nat) : Moves m (ensureDataType i) := by
  refine readU32.bind fun c => ?_
  split
  · exact fail _
  · exact pure _

theorem readString : Moves m readString :=
  readU32.bind fun _ => (alloc _ _).bind fun _ => (readExact _).bind fun _ => lift _

theorem readVocabItems (n : Nat) : Moves m (readVocabItems n) := (alloc _ _).bind fun _ => readString.replicateM n

/-- The padding stays the same if the data is moved by a multiple of four. -/
theorem pad_then {f : Rd β} (hf : Moves 4 f) : Moves 4 (position >>= fun p => skip (padding 4 p) >>= fun _ => f) := by
  have : Moves 4 (position >>= fun p => skip (padding 4 p)) := by
    intro pre d pos h
    have : padding 4 (pre.length + pos) = padding 4 pos := by unfold padding; omega
    simp [this, Res.map, Nat.add_assoc]
  exact this.bind fun _ => hf

theorem mul {p : Rd α} (h : Moves 1 p) : Moves m p := fun pre d pos _ => h pre d pos (Nat.mod_one _)

end Moves

/-- Decomposes a goal `Moves` along the structure of a reader. -/
macro "moves_tac" : tactic => `(tactic|
  repeat' (first
    | exact Moves.pure _ | exact Moves.lift _ | exact Moves.fail _
    | exact Moves.alloc _ _ | exact Moves.allocArray _ _ | exact Moves.readExact _ | exact Moves.readU32
    | exact Moves.readU64 | exact Moves.readF32s _ | exact Moves.ensureChunkType _ | exact Moves.ensureDataType _
    | exact Moves.readVocabItems _ | exact Moves.readString | exact Moves.readChunkId | exact Moves.peekChunkId
    | apply Moves.replicateM | assumption
    | (apply Moves.pad_then) | (apply Moves.bind) | split | (intro _)))

theorem moves_header : Moves 1 Header.read := by unfold Header.read; moves_tac

theorem moves_metadata {T : Type} [Toml T] : Moves 1 (readMetadata : Rd (Metadata T)) := by unfold readMetadata; moves_tac

theorem moves_optMetadata {T : Type} [Toml T] : Moves 1 (readOptMetadata : Rd (Option (Metadata T))) := by
  unfold readOptMetadata
  have := moves_header
  have := moves_metadata (T := T)
  moves_tac

theorem moves_simple : Moves 1 SimpleVocab.read := by unfold SimpleVocab.read; moves_tac

theorem moves_bucketed {I : Type} [BucketIndexer I] (id : ChunkId) : Moves 1 (readBucketed id : Rd (SubwordVocab I)) := by
  unfold readBucketed; moves_tac

theorem moves_explicit : Moves 1 readExplicit := by
  unfold readExplicit readNgrams
  have : Moves 1 readNgram := by unfold readNgram; moves_tac
  moves_tac

theorem moves_floret : Moves 1 readFloret := by unfold readFloret; moves_tac

theorem moves_vocabWrap : Moves 1 readVocabWrap := by
  unfold readVocabWrap
  have := moves_simple
  have := moves_explicit
  have := moves_floret
  have h : ∀ (I : Type) [BucketIndexer I] (id : ChunkId), Moves 1 (readBucketed id : Rd (SubwordVocab I)) :=
    fun I _ id => moves_bucketed id
  refine Moves.peekChunkId.bind fun i => ?_
  cases i
  case simpleVocab => exact moves_simple.bind fun _ => Moves.pure _
  case fastTextSubwordVocab => exact (moves_bucketed _).bind fun _ => Moves.pure _
  case bucketSubwordVocab => exact (moves_bucketed _).bind fun _ => Moves.pure _
  case explicitSubwordVocab => exact moves_explicit.bind fun _ => Moves.pure _
  case floretSubwordVocab => exact moves_floret.bind fun _ => Moves.pure _
  all_goals exact Moves.fail _

theorem moves_array : Moves 4 readNdArray := by unfold readNdArray readNdArrayHead; moves_tac

theorem moves_quantized : Moves 4 readQuantizedArray := by
  unfold readQuantizedArray readQuantizedHead readPq readProjection readQuantizers readQuantizedNorms
  moves_tac

theorem moves_storageWrap : Moves 4 readStorageWrap := by
  unfold readStorageWrap
  refine Moves.peekChunkId.bind fun i => ?_
  cases i
  case ndArray => exact moves_array.bind fun _ => Moves.pure _
  case quantizedArray => exact moves_quantized.bind fun _ => Moves.pure _
  all_goals exact Moves.fail _

theorem moves_norms : Moves 4 readNorms := by unfold readNorms; moves_tac

theorem moves_read {T V S : Type} [Toml T] [ReadChunk V] [ReadChunk S] (hv : Moves 4 (readChunk : Rd V))
    (hs : Moves 4 (readChunk : Rd S)) (pre d : Bytes) (pos : Nat) (h : pre.length % 4 = 0) :
    (Embeddings.read (pre ++ d) (pre.length + pos) : Res (Embeddings T V S F32)) = Embeddings.read d pos := by
  have hh : Moves 4 (readHead : Rd (Option (Metadata T) × V)) := by
    unfold readHead
    exact moves_optMetadata.mul.bind fun _ => hv.bind fun _ => Moves.pure _
  rw [read_eq, read_eq, hh pre d pos h]
  cases readHead (T := T) (V := V) d pos with
  | err => rfl
  | panic => rfl
  | ok r =>
    simp only [Res.map_ok, Res.ok_bind]
    rw [hs pre d r.2 h]
    cases (readChunk : Rd S) d r.2 with
    | err => rfl
    | panic => rfl
    | ok s =>
      simp only [Res.map_ok, Res.ok_bind]
      rw [moves_norms pre d s.2 h]
      cases readNorms d s.2 <;> rfl

/-- C89: the header, metadata and vocabularies are read in the same way wherever they are. -/
theorem c89_head_partial {T : Type} [Toml T] (pre d : Bytes) (pos : Nat) :
    Header.read (pre ++ d) (pre.length + pos) = (Header.read d pos).map (fun r => (r.1, pre.length + r.2)) ∧
    (readOptMetadata : Rd (Option (Metadata T))) (pre ++ d) (pre.length + pos) =
      (readOptMetadata d pos).map (fun r => (r.1, pre.length + r.2)) ∧
    (readChunk : Rd SimpleVocab) (pre ++ d) (pre.length + pos) =
      (readChunk d pos).map (fun r => (r.1, pre.length + r.2)) ∧
    (readChunk : Rd BucketSubwordVocab) (pre ++ d) (pre.length + pos) =
      (readChunk d pos).map (fun r => (r.1, pre.length + r.2)) ∧
    (readChunk : Rd FastTextSubwordVocab) (pre ++ d) (pre.length + pos) =
      (readChunk d pos).map (fun r => (r.1, pre.length + r.2)) ∧
    (readChunk : Rd ExplicitSubwordVocab) (pre ++ d) (pre.length + pos) =
      (readChunk d pos).map (fun r => (r.1, pre.length + r.2)) ∧
    (readChunk : Rd FloretSubwordVocab) (pre ++ d) (pre.length + pos) =
      (readChunk d pos).map (fun r => (r.1, pre.length + r.2)) ∧
    (readChunk : Rd VocabWrap) (pre ++ d) (pre.length + pos) =
      (readChunk d pos).map (fun r => (r.1, pre.length + r.2)) :=
  have h := Nat.mod_one pre.length
  ⟨moves_header pre d pos h, moves_optMetadata pre d pos h, moves_simple pre d pos h, moves_bucketed _ pre d pos h,
    moves_bucketed _ pre d pos h, moves_explicit pre d pos h, moves_floret pre d pos h, moves_vocabWrap pre d pos h⟩

/-- C89: matrices and norms are read in the same way if they are moved by a multiple of four bytes. -/
theorem c89_storage_partial (pre d : Bytes) (pos : Nat) (h : 4 ∣ pre.length) :
    (readChunk : Rd (NdArray F32)) (pre ++ d) (pre.length + pos) =
      (readChunk d pos).map (fun r => (r.1, pre.length + r.2)) ∧
    (readChunk : Rd (QuantizedArray F32)) (pre ++ d) (pre.length + pos) =
      (readChunk d pos).map (fun r => (r.1, pre.length + r.2)) ∧
    (readChunk : Rd StorageWrap) (pre ++ d) (pre.length + pos) =
      (readChunk d pos).map (fun r => (r.1, pre.length + r.2)) ∧
    (readChunk : Rd (NdNorms F32)) (pre ++ d) (pre.length + pos) =
      (readChunk d pos).map (fun r => (r.1, pre.length + r.2)) :=
  have h := Nat.mod_eq_zero_of_dvd h
  ⟨moves_array pre d pos h, moves_quantized pre d pos h, moves_storageWrap pre d pos h, moves_norms pre d pos h⟩

/-- C89: embeddings moved by a multiple of four bytes are read with the same outcome – the same embeddings, the same error or a
panic – for every combination of vocabulary and matrix. -/
theorem c89_partial {T : Type} [Toml T] (pre d : Bytes) (pos : Nat) (h : 4 ∣ pre.length) :
    (Embeddings.read (pre ++ d) (pre.length + pos) : Res (Embeddings T VocabWrap StorageWrap F32)) =
      Embeddings.read d pos ∧
    (Embeddings.read (pre ++ d) (pre.length + pos) : Res (Embeddings T SimpleVocab (NdArray F32) F32)) =
      Embeddings.read d pos ∧
    (Embeddings.read (pre ++ d) (pre.length + pos) : Res (Embeddings T VocabWrap (NdArray F32) F32)) =
      Embeddings.read d pos ∧
    (Embeddings.read (pre ++ d) (pre.length + pos) : Res (Embeddings T VocabWrap (QuantizedArray F32) F32)) =
      Embeddings.read d pos :=
  have h := Nat.mod_eq_zero_of_dvd h
  ⟨moves_read moves_vocabWrap.mul moves_storageWrap pre d pos h, moves_read moves_simple.mul moves_array pre d pos h,
    moves_read moves_vocabWrap.mul moves_array pre d pos h, moves_read moves_vocabWrap.mul moves_quantized pre d pos h⟩

/-- C89, memory mapping: embeddings that can be read and are moved by a multiple of four bytes can be mapped at the new place,
with the same contents. -/
theorem c89_mmap_partial {T : Type} [Toml T] [Scalar F32] (pre d : Bytes) (pos : Nat) (h : 4 ∣ pre.length)
    (e : Embeddings T VocabWrap StorageWrap F32) (he : Embeddings.read d pos = .ok e) :
    ∃ e' : Embeddings T VocabWrap StorageWrap F32, mmap mmapStorageWrap (pre ++ d) (pre.length + pos) = .ok e' ∧
      e'.metadata = e.metadata ∧ e'.vocab = e.vocab ∧ e'.norms = e.norms ∧ SameRows e'.storage e.storage := by
  obtain ⟨e', h1, h2, h3, h4, h5, -⟩ := c21_embeddings _ _ _ (((c89_partial (T := T) pre d pos h).1).trans he)
  exact ⟨e', h1, h2, h3, h4, h5⟩

/-- A file with the word `abcd` and the matrix `(1)`; its padding is four bytes long. -/
def paddedFile : Bytes := [0x46, 0x69, 0x46, 0x75] ++ (Layout.le32 0 ++ (Layout.le32 2 ++ (Layout.le32 1 ++ Layout.le32 2))) ++
  Layout.chunk 1 (Layout.le64 1 ++ Layout.string ['a', 'b', 'c', 'd']) ++
  Layout.chunk 2 (Layout.le64 1 ++ (Layout.le32 1 ++ (Layout.le32 10 ++ ([0, 0, 0, 0] ++ Layout.floats [0x3f800000]))))

theorem paddedFile_read : @Embeddings.read _ SimpleVocab (NdArray F32) exampleToml _ _ paddedFile 0 =
    .ok ⟨none, ⟨⟨1, [[0x3f800000]]⟩⟩, ⟨createIndices [['a', 'b', 'c', 'd']], [['a', 'b', 'c', 'd']]⟩, none⟩ := by
  decide +kernel

/-- C89 does not hold as stated: with one byte in front, the same data is read without an error, but as the matrix
`(-0)` instead of `(1)`. -/
theorem c89_false : ∃ d : Bytes, ∃ e e' : Embeddings Str SimpleVocab (NdArray F32) F32,
    @Embeddings.read _ _ _ exampleToml _ _ d 0 = .ok e ∧ @Embeddings.read _ _ _ exampleToml _ _ (0 :: d) 1 = .ok e' ∧
    e.vocab = e'.vocab ∧ e.storage.inner.rows = [[0x3f800000]] ∧ e'.storage.inner.rows = [[0x80000000]] := by
  refine ⟨paddedFile, _, ⟨none, ⟨⟨1, [[0x80000000]]⟩⟩, ⟨createIndices [['a', 'b', 'c', 'd']], [['a', 'b', 'c', 'd']]⟩, none⟩,
    paddedFile_read, ?_, rfl, rfl, rfl⟩
  decide +kernel

/-- The example behind twelve other bytes. -/
example : @Embeddings.read _ SimpleVocab (NdArray F32) exampleToml _ _ (List.replicate 12 7 ++ paddedFile) 12 =
    .ok ⟨none, ⟨⟨1, [[0x3f800000]]⟩⟩, ⟨createIndices [['a', 'b', 'c', 'd']], [['a', 'b', 'c', 'd']]⟩, none⟩ :=
  ((@c89_partial _ exampleToml (List.replicate 12 7) paddedFile 0 (by decide)).2.1).trans paddedFile_read

/-- `c89_storage_partial` and `c89_mmap_partial` applied to it. -/
example := c89_storage_partial (List.replicate 12 7) paddedFile 50 (by decide)
example [Scalar F32] := @c89_mmap_partial _ exampleToml _ (List.replicate 12 7) paddedFile 0 (by decide)
  ⟨none, .ndArray ⟨⟨1, [[0x3f800000]]⟩⟩, .simple ⟨createIndices [['a', 'b', 'c', 'd']], [['a', 'b', 'c', 'd']]⟩, none⟩
  (by decide +kernel)

end FF
