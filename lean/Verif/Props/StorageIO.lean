import Verif.Props.VocabIO
import Verif.Lemmas.Storage
import Verif.Lemmas.ReadAt

/-!
# Properties of chunk recognition, storage, norms and metadata chunks
(C02, C03, C05, C11, C12, C13, C14, C16)
-/

namespace FF

open Rd

/-! ## C02: wrong magic, version, chunk type or data type -/

/-- C02, magic: a header whose first four bytes are not the magic is refused with a format error. -/
theorem c02_magic (d : Bytes) (pos : Nat) (m : Bytes) (hm : sliceAt d pos 4 = some m)
    (h : m ≠ [70, 105, 70, 117]) : Header.read d pos = .err .format := by
  unfold Header.read
  rw [bind_apply, readExact_eq (by decide), hm]
  have h' : m ≠ magic := h
  simp [h']

/-- C02, version: a header with another version than 0 is refused with a format error. -/
theorem c02_version (d : Bytes) (pos : Nat) (hm : sliceAt d pos 4 = some [70, 105, 70, 117]) (v : Nat)
    (hv : u32At d (pos + 4) = some v) (h : v ≠ 0) : Header.read d pos = .err .format := by
  unfold Header.read
  rw [bind_apply, readExact_eq (by decide), hm]
  have h' : ([70, 105, 70, 117] : Bytes) = magic := rfl
  simp only [Res.ofOption_some, Res.map_ok, Res.ok_bind, h', ne_eq, not_true_eq_false, if_false]
  rw [bind_apply, readU32_some hv]
  have h0 : v ≠ modelVersion := h
  simp [h0]

/-- One wrong byte in the magic number, one in the version: hypotheses of `c02_magic` and `c02_version`. -/
example := c02_magic [70, 105, 70, 118, 0] 0 [70, 105, 70, 118] (by decide) (by decide)
example := c02_version [70, 105, 70, 117, 1, 0, 0, 0, 0] 0 (by decide) 1 (by decide) (by decide)

example : sliceAt [70, 105, 70, 118, 0] 0 4 = some [70, 105, 70, 118] ∧
    u32At [70, 105, 70, 117, 1, 0, 0, 0, 0] 4 = some 1 := by decide

/-- The error with which a wrong chunk identifier `c` is refused: a format error if `c` is the identifier
of another kind of chunk, an unknown-identifier error otherwise. -/
def wrongIdErr (c : Nat) : Err := if 1 ≤ c ∧ c ≤ 9 then .format else .unknownChunk

/-- Specification: the reader accepts only chunks that start with the 32-bit identifier `code`; any other
identifier is refused with an error. -/
def AcceptsOnly {X : Type} (read : Rd X) (code : Nat) : Prop :=
  ∀ d pos c, u32At d pos = some c → c ≠ code → read d pos = .err (wrongIdErr c)

theorem ofCode_none {c : Nat} (h : ChunkId.ofCode c = none) : ¬ (1 ≤ c ∧ c ≤ 9) := by
  intro h9
  have : c = 1 ∨ c = 2 ∨ c = 3 ∨ c = 4 ∨ c = 5 ∨ c = 6 ∨ c = 7 ∨ c = 8 ∨ c = 9 := by omega
  rcases this with rfl | rfl | rfl | rfl | rfl | rfl | rfl | rfl | rfl <;>
    simp [ChunkId.ofCode] at h

theorem ofCode_range {c : Nat} {i : ChunkId} (h : ChunkId.ofCode c = some i) : 1 ≤ c ∧ c ≤ 9 := by
  unfold ChunkId.ofCode at h
  split at h <;> first | omega | simp at h

theorem ensureChunkType_wrong {i : ChunkId} {d : Bytes} {pos c : Nat} (h : u32At d pos = some c)
    (hc : c ≠ i.code) : ensureChunkType i d pos = .err (wrongIdErr c) := by
  unfold wrongIdErr
  cases ho : ChunkId.ofCode c with
  | none => rw [ensureChunkType_unknown h ho, if_neg (ofCode_none ho)]
  | some j =>
    have hj := ofCode_eq_some ho
    rw [ensureChunkType_other h ho (by rintro rfl; exact hc hj.symm), if_pos (ofCode_range ho)]

theorem AcceptsOnly.of_bind {X : Type} {i : ChunkId} {f : Unit → Rd X} :
    AcceptsOnly (ensureChunkType i >>= f) i.code := by
  intro d pos c h hc
  rw [bind_apply, ensureChunkType_wrong h hc]; rfl

theorem AcceptsOnly.bind {X Y : Type} {p : Rd X} {f : X → Rd Y} {n : Nat} (h : AcceptsOnly p n) :
    AcceptsOnly (p >>= f) n := by
  intro d pos c hu hc
  rw [bind_apply, h d pos c hu hc]; rfl

/-- C02, chunk identifiers: every typed chunk reader (and memory mapper) refuses every chunk with another
identifier. -/
theorem c02_chunk_types {T : Type} [Toml T] :
    AcceptsOnly (readChunk : Rd SimpleVocab) 1 ∧
    AcceptsOnly (readChunk : Rd (NdArray F32)) 2 ∧
    AcceptsOnly mmapNdArray 2 ∧
    AcceptsOnly (readChunk : Rd BucketSubwordVocab) 3 ∧
    AcceptsOnly (readChunk : Rd (QuantizedArray F32)) 4 ∧
    AcceptsOnly mmapQuantizedArray 4 ∧
    AcceptsOnly (readChunk : Rd (Metadata T)) 5 ∧
    AcceptsOnly (readChunk : Rd (NdNorms F32)) 6 ∧
    AcceptsOnly (readChunk : Rd FastTextSubwordVocab) 7 ∧
    AcceptsOnly (readChunk : Rd ExplicitSubwordVocab) 8 ∧
    AcceptsOnly (readChunk : Rd FloretSubwordVocab) 9 := by
  have hn : AcceptsOnly readNdArrayHead 2 := AcceptsOnly.of_bind (i := .ndArray)
  have hq : AcceptsOnly readQuantizedHead 4 := AcceptsOnly.of_bind (i := .quantizedArray)
  refine ⟨?_, ?_, ?_, ?_, ?_, ?_, ?_, ?_, ?_, ?_, ?_⟩
  · show AcceptsOnly SimpleVocab.read 1
    exact AcceptsOnly.of_bind (i := .simpleVocab)
  · show AcceptsOnly readNdArray 2
    exact hn.bind
  · exact hn.bind
  · show AcceptsOnly (readBucketed (I := HashIndexer) .bucketSubwordVocab) 3
    exact AcceptsOnly.of_bind (i := .bucketSubwordVocab)
  · show AcceptsOnly readQuantizedArray 4
    exact hq.bind
  · exact hq.bind
  · show AcceptsOnly readMetadata 5
    exact AcceptsOnly.of_bind (i := .metadata)
  · show AcceptsOnly readNorms 6
    exact AcceptsOnly.of_bind (i := .ndNorms)
  · show AcceptsOnly (readBucketed (I := FastTextIndexer) .fastTextSubwordVocab) 7
    exact AcceptsOnly.of_bind (i := .fastTextSubwordVocab)
  · show AcceptsOnly readExplicit 8
    exact AcceptsOnly.of_bind (i := .explicitSubwordVocab)
  · show AcceptsOnly readFloret 9
    exact AcceptsOnly.of_bind (i := .floretSubwordVocab)

example : u32At [2, 0, 0, 0] 0 = some 2 ∧ (2 : Nat) ≠ 1 := by decide

theorem readNdArrayHead_wrongType {d : Bytes} {pos t : Nat} (hid : u32At d pos = some 2)
    (hlen : u64At d (pos + 4) ≠ none) (hrows : u64At d (pos + 12) ≠ none) (hcols : u32At d (pos + 20) ≠ none)
    (ht : u32At d (pos + 24) = some t) (hne : t ≠ 10) : readNdArrayHead d pos = .err .format := by
  obtain ⟨l, hl⟩ := Option.ne_none_iff_exists'.mp hlen
  obtain ⟨r, hr⟩ := Option.ne_none_iff_exists'.mp hrows
  obtain ⟨c, hc⟩ := Option.ne_none_iff_exists'.mp hcols
  unfold readNdArrayHead
  rw [bind_apply, ensureChunkType_some (i := .ndArray) (by simp) hid]
  simp only [Res.ok_bind]
  rw [bind_apply, readU64_some hl]
  simp only [Res.ok_bind]
  rw [bind_apply, readU64_some hr]
  simp only [Res.ok_bind]
  rw [bind_apply, readU32_some hc]
  simp only [Res.ok_bind]
  rw [bind_apply, ensureDataType_other (t := f32TypeId) ht hne]; rfl

/-- C02, data types of arrays: an array chunk whose component type is not `f32` (identifier 10) is refused
with a format error, both when reading and when memory mapping. -/
theorem c02_array_type (d : Bytes) (pos t : Nat) (hid : u32At d pos = some 2)
    (hlen : u64At d (pos + 4) ≠ none) (hrows : u64At d (pos + 12) ≠ none) (hcols : u32At d (pos + 20) ≠ none)
    (ht : u32At d (pos + 24) = some t) (hne : t ≠ 10) :
    (readChunk : Rd (NdArray F32)) d pos = .err .format ∧ mmapNdArray d pos = .err .format := by
  have h := readNdArrayHead_wrongType hid hlen hrows hcols ht hne
  constructor
  · show readNdArray d pos = _
    unfold readNdArray; rw [bind_apply, h]; rfl
  · unfold mmapNdArray; rw [bind_apply, h]; rfl

/-- C02, data types of norms. -/
theorem c02_norms_type (d : Bytes) (pos t : Nat) (hid : u32At d pos = some 6)
    (hlen : u64At d (pos + 4) ≠ none) (hn : u64At d (pos + 12) ≠ none)
    (ht : u32At d (pos + 20) = some t) (hne : t ≠ 10) :
    (readChunk : Rd (NdNorms F32)) d pos = .err .format := by
  obtain ⟨l, hl⟩ := Option.ne_none_iff_exists'.mp hlen
  obtain ⟨r, hr⟩ := Option.ne_none_iff_exists'.mp hn
  show readNorms d pos = _
  unfold readNorms
  rw [bind_apply, ensureChunkType_some (i := .ndNorms) (by simp) hid]
  simp only [Res.ok_bind]
  rw [bind_apply, readU64_some hl]
  simp only [Res.ok_bind]
  rw [bind_apply, readU64_some hr]
  simp only [Res.ok_bind]
  rw [bind_apply, ensureDataType_other (t := f32TypeId) ht hne]; rfl

theorem readQuantizedHead_wrongType {d : Bytes} {pos tq tr q : Nat} (hid : u32At d pos = some 4)
    (h4 : u64At d (pos + 4) ≠ none) (h12 : u32At d (pos + 12) ≠ none) (h16 : u32At d (pos + 16) ≠ none)
    (hq : u32At d (pos + 20) = some q) (h24 : u32At d (pos + 24) ≠ none) (h28 : u32At d (pos + 28) ≠ none)
    (h32 : u64At d (pos + 32) ≠ none) (ht : u32At d (pos + 40) = some tq)
    (ht' : u32At d (pos + 44) = some tr) (hne : tq ≠ 1 ∨ tr ≠ 10) :
    readQuantizedHead d pos = if q = 0 then .panic else .err .format := by
  obtain ⟨l, hl⟩ := Option.ne_none_iff_exists'.mp h4
  obtain ⟨x1, h12⟩ := Option.ne_none_iff_exists'.mp h12
  obtain ⟨x2, h16⟩ := Option.ne_none_iff_exists'.mp h16
  obtain ⟨x3, h24⟩ := Option.ne_none_iff_exists'.mp h24
  obtain ⟨x4, h28⟩ := Option.ne_none_iff_exists'.mp h28
  obtain ⟨x5, h32⟩ := Option.ne_none_iff_exists'.mp h32
  have key : readPq d (pos + 12) = if q = 0 then .panic else .err .format := by
    unfold readPq
    rw [bind_apply, readU32_some h12]
    simp only [Res.ok_bind]
    rw [bind_apply, readU32_some h16]
    simp only [Res.ok_bind]
    rw [bind_apply, readU32_some hq]
    simp only [Res.ok_bind]
    rw [bind_apply, readU32_some h24]
    simp only [Res.ok_bind]
    rw [bind_apply, readU32_some h28]
    simp only [Res.ok_bind]
    rw [bind_apply, readU64_some h32]
    simp only [Res.ok_bind]
    by_cases h0 : q = 0
    · simp [h0]
    · rw [if_neg h0, bind_apply, decide_eq_true h0]
      simp only [Res.assert_true, lift_ok_apply, Res.ok_bind]
      split
      · rfl
      · rw [bind_apply]
        by_cases h1 : tq = 1
        · subst h1
          rw [ensureDataType_some (t := u8TypeId) ht]
          simp only [Res.ok_bind]
          rw [bind_apply, ensureDataType_other (t := f32TypeId) ht' (hne.resolve_left (by simp))]; rfl
        · rw [ensureDataType_other (t := u8TypeId) ht h1]; rfl
  unfold readQuantizedHead
  rw [bind_apply, ensureChunkType_some (i := .quantizedArray) (by simp) hid]
  simp only [Res.ok_bind]
  rw [bind_apply, readU64_some hl]
  simp only [Res.ok_bind]
  rw [bind_apply, key]
  split <;> rfl

/-- C02, data types of quantized arrays: codes must be of type `u8` (identifier 1) and reconstructions of
type `f32`. Other types are refused with a format error, also when memory mapping; when the chunk also
claims zero sub-quantizers, the reader panics instead (see C56). -/
theorem c02_quantized_type (d : Bytes) (pos tq tr q : Nat) (hid : u32At d pos = some 4)
    (h4 : u64At d (pos + 4) ≠ none) (h12 : u32At d (pos + 12) ≠ none) (h16 : u32At d (pos + 16) ≠ none)
    (hq : u32At d (pos + 20) = some q) (h24 : u32At d (pos + 24) ≠ none) (h28 : u32At d (pos + 28) ≠ none)
    (h32 : u64At d (pos + 32) ≠ none) (ht : u32At d (pos + 40) = some tq)
    (ht' : u32At d (pos + 44) = some tr) (hne : tq ≠ 1 ∨ tr ≠ 10) :
    (readChunk : Rd (QuantizedArray F32)) d pos = (if q = 0 then .panic else .err .format) ∧
    mmapQuantizedArray d pos = (if q = 0 then .panic else .err .format) := by
  have h := readQuantizedHead_wrongType hid h4 h12 h16 hq h24 h28 h32 ht ht' hne
  constructor
  · show readQuantizedArray d pos = _
    unfold readQuantizedArray; rw [bind_apply, h]; split <;> rfl
  · unfold mmapQuantizedArray; rw [bind_apply, h]; split <;> rfl

/-- Chunks with another type identifier: hypotheses of `c02_array_type` and `c02_norms_type`. -/
example := c02_array_type ((writeChunk (NdArray.mk (⟨1, [[5]]⟩ : Mat F32)) 0).bytes.set 24 11) 0 11
  (by decide +kernel) (by decide +kernel) (by decide +kernel) (by decide +kernel) (by decide +kernel) (by decide)
example := c02_norms_type ((writeChunk (NdNorms.mk ([5, 6] : List F32)) 0).bytes.set 20 11) 0 11
  (by decide +kernel) (by decide +kernel) (by decide +kernel) (by decide +kernel) (by decide)
/-- A quantized chunk with four centroids whose second type identifier is wrong: hypotheses of
`c02_quantized_type`. -/
example := c02_quantized_type ([4, 1, 4, 4].flatMap (fun b => if b = 1 then List.replicate 8 0 else [b, 0, 0, 0]) ++
    [2, 0, 0, 0, 4, 0, 0, 0, 4, 0, 0, 0, 0, 0, 0, 0, 0, 0, 0, 0, 1, 0, 0, 0, 11, 0, 0, 0]) 0 1 11 2
  (by decide) (by decide) (by decide) (by decide) (by decide) (by decide) (by decide) (by decide) (by decide)
  (by decide) (by decide)

example : (let d := (writeChunk (NdArray.mk (⟨1, [[5]]⟩ : Mat F32)) 0).bytes.set 24 11;
    u32At d 0 = some 2 ∧ u64At d 4 ≠ none ∧ u64At d 12 ≠ none ∧ u32At d 20 ≠ none ∧ u32At d 24 = some 11) := by
  decide +kernel

example : (let d := (writeChunk (NdNorms.mk ([5, 6] : List F32)) 0).bytes.set 20 11;
    u32At d 0 = some 6 ∧ u64At d 4 ≠ none ∧ u64At d 12 ≠ none ∧ u32At d 20 = some 11) := by
  decide +kernel

/-! ## C03: alignment -/

/-- Specification of alignment: written at position `off`, the chunk consists of `headLen` bytes, then 1 to
4 zero bytes, then the data, which starts at a position divisible by 4. -/
def Aligned (bytes : Bytes) (off headLen : Nat) (data : Bytes) : Prop :=
  ∃ head k, bytes = head ++ List.replicate k 0 ++ data ∧ head.length = headLen ∧ 1 ≤ k ∧ k ≤ 4 ∧
    (off + head.length + k) % 4 = 0

/-- C03 for dense arrays. -/
theorem c03_array (a : NdArray F32) (off : Nat) :
    Aligned (writeChunk a off).bytes off 28 (encodeF32s a.inner.rows.flatten) := by
  show Aligned (writeNdArray a.inner off).bytes _ _ _
  rw [writeNdArray_bytes]
  refine ⟨leBytes 4 ChunkId.ndArray.code ++ (leBytes 8 (ndArrayLen a.inner.len (off + 4) - 12) ++
    (leBytes 8 a.inner.nrows ++ (leBytes 4 a.inner.cols ++ leBytes 4 f32TypeId))), padding 4 (off + 4),
    by simp only [List.append_assoc], by simp, (padding4_bounds _).1, (padding4_bounds _).2, ?_⟩
  have := padding4_aligned (off + 4)
  simp only [List.length_append, leBytes_length]; omega

/-- C03 for norms. -/
theorem c03_norms (a : NdNorms F32) (off : Nat) :
    Aligned (writeChunk a off).bytes off 24 (encodeF32s a.inner) := by
  show Aligned (writeNorms a.inner off).bytes _ _ _
  rw [writeNorms_bytes]
  refine ⟨leBytes 4 ChunkId.ndNorms.code ++ (leBytes 8 (normsLen a.inner.length (off + 4) - 12) ++
    (leBytes 8 a.inner.length ++ leBytes 4 f32TypeId)), padding 4 (off + 4),
    by simp only [List.append_assoc], by simp, (padding4_bounds _).1, (padding4_bounds _).2, ?_⟩
  have := padding4_aligned (off + 4)
  simp only [List.length_append, leBytes_length]; omega

/-- C03 for quantized arrays: the float data are the projection, the centroids and the norms; the codes
follow. -/
theorem c03_quantized (a : QuantizedArray F32) (off : Nat) :
    Aligned (writeChunk a off).bytes off 48
      (encodeF32s (Mat.flats a.quantizer.projection.toList ++ Mat.flats a.quantizer.quantizers ++
        a.norms.toList.flatten) ++ a.codes.rows.flatten) := by
  show Aligned (writeQuantizedArray a.quantizer a.codes a.norms off).bytes _ _ _
  rw [writeQuantizedArray_bytes]
  refine ⟨leBytes 4 ChunkId.quantizedArray.code ++
    (leBytes 8 (quantizedArrayLen a.quantizer a.codes.nrows a.norms (off + 4) - 12) ++
    (leBytes 4 a.quantizer.projection.isSome.toNat ++ (leBytes 4 a.norms.isSome.toNat ++
    (leBytes 4 a.quantizer.quantizedLen ++ (leBytes 4 a.quantizer.reconstructedLen ++
    (leBytes 4 a.quantizer.nCentroids ++
    (leBytes 8 a.codes.nrows ++ (leBytes 4 u8TypeId ++ leBytes 4 f32TypeId)))))))), padding 4 (off + 4),
    by simp only [List.append_assoc, encodeF32s_append], by simp, (padding4_bounds _).1,
    (padding4_bounds _).2, ?_⟩
  have := padding4_aligned (off + 4)
  simp only [List.length_append, leBytes_length]; omega

/-! ## C05: lengths -/

/-- C05 for dense arrays. `WF` is the invariant of a two-dimensional array (all rows equally long). -/
theorem c05_array (a : NdArray F32) (h : a.inner.WF) : LenCorrect a := by
  intro off
  have hs := writeNdArray_size h off
  refine ⟨writeNdArray_good _ _, hs, ?_, ?_⟩
  · show 12 ≤ (writeNdArray a.inner off).bytes.length
    rw [hs]; unfold ndArrayLen; omega
  · intro hlt
    show leVal (((writeNdArray a.inner off).bytes.drop 4).take 8) = _
    have hs' : (writeNdArray a.inner off).bytes.length = ndArrayLen a.inner.len (off + 4) := by
      rw [hs]; simp only [ndArrayLen, padding]; omega
    have hlt' : (writeNdArray a.inner off).bytes.length < 2 ^ 64 := hlt
    show _ = ((writeNdArray a.inner off).bytes.drop 12).length
    rw [writeNdArray_bytes] at *
    apply lenField
    · simp only [List.length_append, leBytes_length] at hs' ⊢; omega
    · omega

/-- C05 for norms. -/
theorem c05_norms (a : NdNorms F32) : LenCorrect a := by
  intro off
  have hs := writeNorms_size a.inner off
  refine ⟨writeNorms_good _ _, hs, ?_, ?_⟩
  · show 12 ≤ (writeNorms a.inner off).bytes.length
    rw [hs]; unfold normsLen; omega
  · intro hlt
    show leVal (((writeNorms a.inner off).bytes.drop 4).take 8) =
      ((writeNorms a.inner off).bytes.drop 12).length
    have hs' : (writeNorms a.inner off).bytes.length = normsLen a.inner.length (off + 4) := by
      rw [hs]; simp only [normsLen, padding]; omega
    have hlt' : (writeNorms a.inner off).bytes.length < 2 ^ 64 := hlt
    rw [writeNorms_bytes] at *
    apply lenField
    · simp only [List.length_append, leBytes_length] at hs' ⊢; omega
    · omega

/-- C05 for quantized arrays. -/
theorem c05_quantized (a : QuantizedArray F32) (h : a.WF) : LenCorrect a := by
  intro off
  have hs := QuantizedArray.size h off
  refine ⟨writeQuantizedArray_good _ _ _ _, hs, ?_, ?_⟩
  · show 12 ≤ (writeQuantizedArray a.quantizer a.codes a.norms off).bytes.length
    rw [hs]; unfold quantizedArrayLen; omega
  · intro hlt
    show leVal (((writeQuantizedArray a.quantizer a.codes a.norms off).bytes.drop 4).take 8) =
      ((writeQuantizedArray a.quantizer a.codes a.norms off).bytes.drop 12).length
    have hs' : (writeQuantizedArray a.quantizer a.codes a.norms off).bytes.length =
        quantizedArrayLen a.quantizer a.codes.nrows a.norms (off + 4) := by
      rw [hs]; simp only [quantizedArrayLen, padding]; omega
    have hlt' : (writeQuantizedArray a.quantizer a.codes a.norms off).bytes.length < 2 ^ 64 := hlt
    rw [writeQuantizedArray_bytes] at *
    apply lenField
    · simp only [List.length_append, leBytes_length] at hs' ⊢; omega
    · omega

/-- C05 for metadata. -/
theorem c05_metadata {T : Type} [Toml T] (m : Metadata T) : LenCorrect m := by
  intro off
  have hs := writeMetadata_size m
  refine ⟨writeMetadata_good _, hs, ?_, ?_⟩
  · show 12 ≤ (writeMetadata m).bytes.length
    rw [hs]; unfold metadataLen; omega
  · intro hlt
    show leVal (((writeMetadata m).bytes.drop 4).take 8) = ((writeMetadata m).bytes.drop 12).length
    have hlt' : (writeMetadata m).bytes.length < 2 ^ 64 := hlt
    have e : strLen (Toml.print m.inner) = metadataLen m - 12 := by unfold metadataLen; omega
    rw [writeMetadata_bytes] at *
    rw [e]
    apply lenField
    · unfold metadataLen strLen; omega
    · omega

/-- A quantized matrix used as example: two sub-quantizers with two centroids of two components, with
projection and norms. -/
def exampleQuantized : QuantizedArray F32 where
  quantizer :=
    { projection := some ⟨4, [[1, 0, 0, 0], [0, 1, 0, 0], [0, 0, 1, 0], [0, 0, 0, 1]]⟩
      nCentroids := 2, subDim := 2, quantizers := [⟨2, [[1, 2], [3, 4]]⟩, ⟨2, [[5, 6], [7, 8]]⟩] }
  codes := ⟨2, [[0, 1], [1, 1], [1, 0]]⟩
  norms := some [9, 10, 11]

theorem exampleQuantized_wf : exampleQuantized.WF where
  pq := { ne := by decide, cent := by decide, sub := by decide
          shape := by unfold Mat.WF; decide
          proj := by
            intro p hp
            cases hp
            unfold Mat.WF; decide }
  codes := by unfold Mat.WF; decide
  cols := rfl
  norms := by intro ns h; cases h; rfl

theorem exampleQuantized_fits : exampleQuantized.Fits where
  qlen := by decide
  rlen := by decide
  cent := by decide
  proj := by intro _; decide
  quant := by decide
  norms := by intro _; decide
  codes := by decide

example : (NdArray.mk (⟨2, [[1, 2], [3, 0x7fc00001]]⟩ : Mat F32)).inner.WF := by
  unfold Mat.WF; decide

/-! ## C11-C14: round trips -/

/-- C11: dense arrays; the size conditions hold for every array that exists in memory and has fewer than
2^32 columns. -/
theorem c11_array (a : NdArray F32) (h : a.inner.WF) (hc : a.inner.cols < 2 ^ 32)
    (hr : a.inner.nrows < 2 ^ 63) (hl : 4 * (a.inner.nrows * a.inner.cols) ≤ isizeMax) : RoundTrips a :=
  .of_readsAt (fun _ => writeNdArray_good _ _) fun off => by
    refine readNdArray_readsAt h off (by omega) hc ?_ hl
    by_cases h1 : a.inner.nrows = 0
    · by_cases h2 : a.inner.cols = 0 <;> simp [h1, h2, isizeMax]; omega
    · by_cases h2 : a.inner.cols = 0
      · simp [h1, h2, isizeMax]; omega
      · simp [h1, h2]; omega

/-- Two rows, one value of which is not a number: hypotheses of `c11_array`. -/
example := c11_array ⟨⟨2, [[1, 2], [3, 0x7fc00001]]⟩⟩ (by unfold Mat.WF; decide) (by decide) (by decide) (by decide)

/-- C11, the excluded case: with 2^32 columns or more, the written number of columns is wrong. -/
theorem c11_wide_false : ∃ a : NdArray F32, a.inner.WF ∧ a.inner.cols = 2 ^ 32 ∧ a.inner.nrows = 0 ∧
    ¬ RoundTrips a := by
  refine ⟨⟨⟨2 ^ 32, []⟩⟩, by intro r hr; simp at hr, rfl, rfl, ?_⟩
  intro h
  have := (h [] []).2
  revert this
  decide +kernel

/-- C12: quantized arrays. `Fits` holds for every quantized array that exists in memory and whose
dimensions are below 2^32. -/
theorem c12_quantized (a : QuantizedArray F32) (h : a.WF) (hf : a.Fits) : RoundTrips a :=
  .of_readsAt (fun _ => writeQuantizedArray_good _ _ _ _) fun off => readQuantizedArray_readsAt h hf off

/-- Hypotheses of `c05_quantized` and `c12_quantized`. -/
example := c05_quantized _ exampleQuantized_wf
example := c12_quantized _ exampleQuantized_wf exampleQuantized_fits

example : exampleQuantized.WF ∧ exampleQuantized.Fits := ⟨exampleQuantized_wf, exampleQuantized_fits⟩

/-- C13: norms. -/
theorem c13_norms (a : NdNorms F32) (h : 4 * a.inner.length ≤ isizeMax) : RoundTrips a :=
  .of_readsAt (fun _ => writeNorms_good _ _) fun off => readNorms_readsAt a.inner off h

/-- Two norms: hypothesis of `c13_norms`. -/
example := c13_norms ⟨[1, 0x7fc00001]⟩ (by decide)

/-- C14: metadata, if the TOML printer and parser agree on this table. -/
theorem c14_metadata {T : Type} [Toml T] (m : Metadata T)
    (hp : Toml.parse (Toml.print m.inner) = some m.inner)
    (hl : strLen (Toml.print m.inner) ≤ isizeMax) : RoundTrips m :=
  .of_readsAt (fun _ => writeMetadata_good _) fun off => readMetadata_readsAt m off hp hl

/-- A concrete TOML codec for the examples: tables are strings. -/
@[instance_reducible] def exampleToml : Toml Str := ⟨id, some⟩

example : @Toml.parse _ exampleToml (@Toml.print _ exampleToml ['a', '=', '"', 'é', '"']) =
    some ['a', '=', '"', 'é', '"'] := rfl

/-- Hypotheses of `c14_metadata`. -/
example := @c14_metadata _ exampleToml ⟨['a', '=', '"', 'é', '"']⟩ rfl (by decide)

/-! ## C16: wrappers -/

theorem peekChunkId_some {d : Bytes} {pos : Nat} {i : ChunkId} (hi : i ≠ .header)
    (h : u32At d pos = some i.code) : peekChunkId d pos = .ok (i, pos) := by
  unfold peekChunkId
  rw [readChunkId_eq, h]
  simp only [ChunkId.ofCode_code hi]
  rfl

theorem peekChunkId_bind {X : Type} {d : Bytes} {pos : Nat} {i : ChunkId} {f : ChunkId → Rd X}
    (hi : i ≠ .header) (h : u32At d pos = some i.code) : (peekChunkId >>= f) d pos = f i d pos := by
  rw [bind_apply, peekChunkId_some hi h]; rfl

theorem bind_pure_map {X Y : Type} (p : Rd X) (f : X → Y) (d : Bytes) (pos : Nat) :
    (p >>= fun x => pure (f x)) d pos = (p d pos).map fun r => (f r.1, r.2) := by
  rw [bind_apply]; cases p d pos <;> rfl

/-- Specification: on chunks with identifier `code`, the wrapper's reader does exactly what the reader of the
concrete type does (value, end position, error or panic), wrapping the value with `inj`. -/
def AgreesOn {X Y : Type} (wrap : Rd Y) (code : Nat) (typed : Rd X) (inj : X → Y) : Prop :=
  ∀ d pos, u32At d pos = some code → wrap d pos = (typed d pos).map fun r => (inj r.1, r.2)

/-- Specification: on chunks whose identifier is not one of `codes`, and at the end of the data, the wrapper's
reader returns an error. -/
def RefusesOthers {Y : Type} (wrap : Rd Y) (codes : List Nat) : Prop :=
  ∀ d pos, (u32At d pos = none → wrap d pos = .err .io) ∧
    ∀ c, u32At d pos = some c → c ∉ codes → wrap d pos = .err (wrongIdErr c)

theorem refusesOthers_of {Y : Type} {f : ChunkId → Rd Y} {codes : List Nat}
    (hf : ∀ i d pos, i.code ∉ codes → f i d pos = .err .format) : RefusesOthers (peekChunkId >>= f) codes := by
  intro d pos
  constructor
  · intro h
    rw [bind_apply, peekChunkId, readChunkId_eq, h]; rfl
  · intro c h hc
    rw [bind_apply, peekChunkId, readChunkId_eq, h]
    unfold wrongIdErr
    cases ho : ChunkId.ofCode c with
    | none =>
      simp only [ho]
      rw [if_neg (ofCode_none ho)]; rfl
    | some i =>
      have e := ofCode_eq_some ho
      simp only [ho]
      rw [if_pos (ofCode_range ho)]
      exact hf i d pos (e ▸ hc)

/-- C16: reading as vocabulary wrapper is reading as the type named by the identifier. -/
theorem c16_vocab :
    AgreesOn readVocabWrap 1 (readChunk : Rd SimpleVocab) .simple ∧
    AgreesOn readVocabWrap 3 (readChunk : Rd BucketSubwordVocab) .bucket ∧
    AgreesOn readVocabWrap 7 (readChunk : Rd FastTextSubwordVocab) .fastText ∧
    AgreesOn readVocabWrap 8 (readChunk : Rd ExplicitSubwordVocab) .explicit ∧
    AgreesOn readVocabWrap 9 (readChunk : Rd FloretSubwordVocab) .floret ∧
    RefusesOthers readVocabWrap [1, 3, 7, 8, 9] := by
  refine ⟨?_, ?_, ?_, ?_, ?_, ?_⟩
  · intro d pos h
    exact (peekChunkId_bind (i := .simpleVocab) (by simp) h).trans (bind_pure_map _ _ _ _)
  · intro d pos h
    exact (peekChunkId_bind (i := .bucketSubwordVocab) (by simp) h).trans (bind_pure_map _ _ _ _)
  · intro d pos h
    exact (peekChunkId_bind (i := .fastTextSubwordVocab) (by simp) h).trans (bind_pure_map _ _ _ _)
  · intro d pos h
    exact (peekChunkId_bind (i := .explicitSubwordVocab) (by simp) h).trans (bind_pure_map _ _ _ _)
  · intro d pos h
    exact (peekChunkId_bind (i := .floretSubwordVocab) (by simp) h).trans (bind_pure_map _ _ _ _)
  · refine refusesOthers_of fun i d pos hi => ?_
    cases i <;> first | rfl | exact absurd hi (by simp [ChunkId.code])

/-- C16: reading (or memory mapping) as storage wrapper is reading (mapping) as the type named by the
identifier. -/
theorem c16_storage :
    AgreesOn readStorageWrap 2 (readChunk : Rd (NdArray F32)) .ndArray ∧
    AgreesOn readStorageWrap 4 (readChunk : Rd (QuantizedArray F32)) .quantized ∧
    RefusesOthers readStorageWrap [2, 4] ∧
    AgreesOn mmapStorageWrap 2 mmapNdArray .mmapArray ∧
    AgreesOn mmapStorageWrap 4 mmapQuantizedArray .mmapQuantized ∧
    RefusesOthers mmapStorageWrap [2, 4] := by
  refine ⟨?_, ?_, ?_, ?_, ?_, ?_⟩
  · intro d pos h
    exact (peekChunkId_bind (i := .ndArray) (by simp) h).trans (bind_pure_map _ _ _ _)
  · intro d pos h
    exact (peekChunkId_bind (i := .quantizedArray) (by simp) h).trans (bind_pure_map _ _ _ _)
  · refine refusesOthers_of fun i d pos hi => ?_
    cases i <;> first | rfl | exact absurd hi (by simp [ChunkId.code])
  · intro d pos h
    exact (peekChunkId_bind (i := .ndArray) (by simp) h).trans (bind_pure_map _ _ _ _)
  · intro d pos h
    exact (peekChunkId_bind (i := .quantizedArray) (by simp) h).trans (bind_pure_map _ _ _ _)
  · refine refusesOthers_of fun i d pos hi => ?_
    cases i <;> first | rfl | exact absurd hi (by simp [ChunkId.code])

/-- C16: the viewable storage wrapper accepts exactly dense arrays; in particular it refuses quantized
chunks (identifier 4). -/
theorem c16_storage_view :
    AgreesOn readStorageViewWrap 2 (readChunk : Rd (NdArray F32)) .ndArray ∧
    RefusesOthers readStorageViewWrap [2] ∧
    AgreesOn mmapStorageViewWrap 2 mmapNdArray .mmapArray ∧
    RefusesOthers mmapStorageViewWrap [2] := by
  refine ⟨?_, ?_, ?_, ?_⟩
  · intro d pos h
    exact (peekChunkId_bind (i := .ndArray) (by simp) h).trans (bind_pure_map _ _ _ _)
  · refine refusesOthers_of fun i d pos hi => ?_
    cases i <;> first | rfl | exact absurd hi (by simp [ChunkId.code])
  · intro d pos h
    exact (peekChunkId_bind (i := .ndArray) (by simp) h).trans (bind_pure_map _ _ _ _)
  · refine refusesOthers_of fun i d pos hi => ?_
    cases i <;> first | rfl | exact absurd hi (by simp [ChunkId.code])

end FF
