import Verif.Model.Wrappers
import Verif.Lemmas.Io

/-!
# Lemmas about storage, norms and metadata chunks
-/

namespace FF

open Rd

theorem padding4_add (p k : Nat) : padding 4 (p + 4 * k) = padding 4 p := by
  unfold padding; omega

theorem padding4_bounds (p : Nat) : 1 ≤ padding 4 p ∧ padding 4 p ≤ 4 := by
  unfold padding; omega

theorem padding4_aligned (p : Nat) : (p + padding 4 p) % 4 = 0 := by
  unfold padding; omega

/-! ## Blocks of floats -/

theorem good_f32s (xs : List F32) : (W.each W.f32 xs).Good := W.good_each fun _ _ => W.good_f32 _

theorem bytes_f32s (xs : List F32) : (W.each W.f32 xs).bytes = encodeF32s xs := by
  rw [W.bytes_each fun _ _ => W.good_f32 _]; simp [encodeF32s]

theorem good_f32ss (xs : List (List F32)) : (W.each (W.each W.f32) xs).Good :=
  W.good_each fun _ _ => good_f32s _

theorem encodeF32s_flatten (xs : List (List F32)) :
    encodeF32s xs.flatten = xs.flatMap encodeF32s := by
  induction xs with
  | nil => rfl
  | cons x xs ih => simp [ih]

theorem bytes_f32ss (xs : List (List F32)) :
    (W.each (W.each W.f32) xs).bytes = encodeF32s xs.flatten := by
  rw [W.bytes_each fun _ _ => good_f32s _, encodeF32s_flatten]
  simp [bytes_f32s]

/-- The rows of several matrices, one after the other. -/
def Mat.flats (ms : List (Mat F32)) : List F32 := (ms.map fun m => m.rows.flatten).flatten

/-- The writer of the rows of a matrix (named for rewriting). -/
def matW (m : Mat F32) : W := W.each (W.each W.f32) m.rows

theorem good_mats (ms : List (Mat F32)) : (W.each matW ms).Good :=
  W.good_each fun _ _ => good_f32ss _

theorem bytes_mats (ms : List (Mat F32)) : (W.each matW ms).bytes = encodeF32s (Mat.flats ms) := by
  rw [W.bytes_each (f := matW) fun _ _ => good_f32ss _, Mat.flats, encodeF32s_flatten]
  simp only [List.flatMap_map]
  congr 1
  funext m
  exact bytes_f32ss m.rows

/-- The writer of one code byte (named for rewriting). -/
def codeW (c : UInt8) : W := W.emit [c]

theorem good_codes (cs : List UInt8) : (W.each codeW cs).Good := W.good_each fun _ _ => W.good_emit _

theorem bytes_codes (cs : List UInt8) : (W.each codeW cs).bytes = cs := by
  rw [W.bytes_each (f := codeW) fun _ _ => W.good_emit _]
  simp [codeW]

theorem good_codess (cs : List (List UInt8)) : (W.each (W.each codeW) cs).Good :=
  W.good_each fun _ _ => good_codes _

theorem bytes_codess (cs : List (List UInt8)) : (W.each (W.each codeW) cs).bytes = cs.flatten := by
  rw [W.bytes_each fun _ _ => good_codes _]
  induction cs with
  | nil => rfl
  | cons c cs ih => simp [bytes_codes]

/-! ## Dense arrays -/

theorem writeNdArray_good (m : Mat F32) (off : Nat) : (writeNdArray m off).Good := by
  simp [writeNdArray, good_f32ss]

theorem writeNdArray_bytes (m : Mat F32) (off : Nat) : (writeNdArray m off).bytes =
    leBytes 4 ChunkId.ndArray.code ++ (leBytes 8 (ndArrayLen m.len (off + 4) - 12) ++
      (leBytes 8 m.nrows ++ (leBytes 4 m.cols ++ (leBytes 4 f32TypeId ++
        (List.replicate (padding 4 (off + 4)) 0 ++ encodeF32s m.rows.flatten))))) := by
  simp [writeNdArray, W.bytes_seq, bytes_f32ss]

theorem writeNdArray_size {m : Mat F32} (h : m.WF) (off : Nat) :
    (writeNdArray m off).bytes.length = ndArrayLen m.len off := by
  rw [writeNdArray_bytes]
  simp only [List.length_append, leBytes_length, List.length_replicate, encodeF32s_length,
    Mat.flatten_length h, ndArrayLen]
  omega

theorem readU64_any {off : Nat} (v : Nat) : ∃ x, ReadsAt readU64 off (leBytes 8 v) x := by
  refine ⟨v % 2 ^ 64, ?_⟩
  have := ReadsAt.readU64 (off := off) (v := v % 2 ^ 64) (Nat.mod_lt _ (by decide))
  have e : leBytes 8 (v % 2 ^ 64) = leBytes 8 v := by
    have h1 : leVal (leBytes 8 v) = v % 256 ^ 8 := leVal_leBytes 8 v
    have h2 := leBytes_leVal (leBytes 8 v)
    rw [leBytes_length, h1] at h2
    simpa using h2
  rwa [e] at this

theorem skipPadding_readsAt (off : Nat) : ReadsAt (do let p ← position; skip (padding 4 p)) off
    (List.replicate (padding 4 off) 0) () := by
  refine ReadsAt.bind0 (ReadsAt.position off) ?_
  have := ReadsAt.skip off (List.replicate (padding 4 off) (0 : UInt8))
  simpa using this

theorem readNdArrayHead_readsAt (off len rows cols : Nat) (hr : rows < 2 ^ 64) (hc : cols < 2 ^ 32) :
    ReadsAt readNdArrayHead off (leBytes 4 ChunkId.ndArray.code ++ (leBytes 8 len ++ (leBytes 8 rows ++
      (leBytes 4 cols ++ (leBytes 4 f32TypeId ++ List.replicate (padding 4 (off + 4)) 0)))))
      (rows, cols) := by
  unfold readNdArrayHead
  refine ReadsAt.bind (ensureChunkType_readsAt (by simp)) ?_
  obtain ⟨x, hx⟩ := readU64_any (off := off + (leBytes 4 ChunkId.ndArray.code).length) len
  refine ReadsAt.bind hx ?_
  refine ReadsAt.bind (ReadsAt.readU64 hr) ?_
  refine ReadsAt.bind (ReadsAt.readU32 hc) ?_
  refine ReadsAt.bind (ensureDataType_readsAt (by decide)) ?_
  simp only [leBytes_length]
  have hp := skipPadding_readsAt (off + 4 + 8 + 8 + 4 + 4)
  rw [show padding 4 (off + 4 + 8 + 8 + 4 + 4) = padding 4 (off + 4) from
    padding4_add (off + 4) 6 ▸ by congr 1] at hp
  have := ReadsAt.map (fun _ => (rows, cols)) hp
  simpa using this

theorem readNdArray_readsAt {m : Mat F32} (h : m.WF) (off : Nat) (hr : m.nrows < 2 ^ 64)
    (hc : m.cols < 2 ^ 32)
    (ha : ([m.nrows, m.cols].filter (· ≠ 0)).prod ≤ isizeMax) (hl : 4 * m.len ≤ isizeMax) :
    ReadsAt readNdArray off (writeNdArray m off).bytes ⟨m⟩ := by
  rw [writeNdArray_bytes]
  have e := readNdArrayHead_readsAt off (ndArrayLen m.len (off + 4) - 12) m.nrows m.cols hr hc
  unfold readNdArray
  have := ReadsAt.bind (f := fun x : Nat × Nat => do
      allocArray 4 [x.1, x.2]
      let data ← readF32s (x.1 * x.2)
      return (⟨Mat.ofFlat x.1 x.2 data⟩ : NdArray F32)) e
    (b₂ := encodeF32s m.rows.flatten) (b := ⟨m⟩) (by
      refine ReadsAt.bind0 (allocArray_readsAt ha (by simpa [Mat.len] using hl)) ?_
      have := ReadsAt.readF32s (off + (leBytes 4 ChunkId.ndArray.code ++
        (leBytes 8 (ndArrayLen m.len (off + 4) - 12) ++ (leBytes 8 m.nrows ++
      (leBytes 4 m.cols ++ (leBytes 4 f32TypeId ++
        List.replicate (padding 4 (off + 4)) 0))))).length) m.rows.flatten
      rw [Mat.flatten_length h] at this
      have := ReadsAt.map (fun data => NdArray.mk (Mat.ofFlat m.nrows m.cols data)) this
      rwa [Mat.ofFlat_flatten h] at this)
  simpa only [List.append_assoc] using this

theorem readNdArrayHead_mono : Mono readNdArrayHead := by
  unfold readNdArrayHead; mono_tac
  all_goals first | apply ensureChunkType_mono | apply ensureDataType_mono

theorem readNdArray_mono : Mono readNdArray := by
  unfold readNdArray
  refine readNdArrayHead_mono.bind fun _ => ?_
  mono_tac
  all_goals first | apply allocArray_mono

/-! ## Norms -/

theorem writeNorms_good (ns : List F32) (off : Nat) : (writeNorms ns off).Good := by
  simp [writeNorms, good_f32s]

theorem writeNorms_bytes (ns : List F32) (off : Nat) : (writeNorms ns off).bytes =
    leBytes 4 ChunkId.ndNorms.code ++ (leBytes 8 (normsLen ns.length (off + 4) - 12) ++
      (leBytes 8 ns.length ++ (leBytes 4 f32TypeId ++
        (List.replicate (padding 4 (off + 4)) 0 ++ encodeF32s ns)))) := by
  simp [writeNorms, W.bytes_seq, bytes_f32s]

theorem writeNorms_size (ns : List F32) (off : Nat) :
    (writeNorms ns off).bytes.length = normsLen ns.length off := by
  rw [writeNorms_bytes]
  simp only [List.length_append, leBytes_length, List.length_replicate, encodeF32s_length, normsLen]
  omega

theorem readNorms_readsAt (ns : List F32) (off : Nat) (h : 4 * ns.length ≤ isizeMax) :
    ReadsAt readNorms off (writeNorms ns off).bytes ⟨ns⟩ := by
  have h63 : ns.length < 2 ^ 64 := by unfold isizeMax at h; omega
  rw [writeNorms_bytes]
  unfold readNorms
  refine ReadsAt.bind (ensureChunkType_readsAt (by simp)) ?_
  obtain ⟨x, hx⟩ := readU64_any (off := off + (leBytes 4 ChunkId.ndNorms.code).length)
    (normsLen ns.length (off + 4) - 12)
  refine ReadsAt.bind hx ?_
  refine ReadsAt.bind (ReadsAt.readU64 h63) ?_
  refine ReadsAt.bind (ensureDataType_readsAt (by decide)) ?_
  simp only [leBytes_length]
  have hp := skipPadding_readsAt (off + 4 + 8 + 8 + 4)
  rw [show padding 4 (off + 4 + 8 + 8 + 4) = padding 4 (off + 4) from
    padding4_add (off + 4) 5 ▸ by congr 1] at hp
  have hd : ReadsAt (do allocArray 4 [ns.length]; let data ← readF32s ns.length; return (⟨data⟩ : NdNorms F32))
      (off + 4 + 8 + 8 + 4 + (List.replicate (padding 4 (off + 4)) (0 : UInt8)).length)
      (encodeF32s ns) ⟨ns⟩ := by
    refine ReadsAt.bind0 (allocArray_readsAt ?_ (by simpa using h)) ?_
    · by_cases h0 : ns.length = 0
      · simp [h0, isizeMax]
      · simp [h0]; omega
    · exact ReadsAt.map NdNorms.mk (ReadsAt.readF32s _ ns)
  have := ReadsAt.bind hp (f := fun _ => (do
    allocArray 4 [ns.length]; let data ← readF32s ns.length; return (⟨data⟩ : NdNorms F32))) hd
  simpa only [bind_assoc] using this

theorem readNorms_mono : Mono readNorms := by
  unfold readNorms; mono_tac
  all_goals first | apply ensureChunkType_mono | apply ensureDataType_mono | apply allocArray_mono

/-! ## Metadata -/

section
variable {T : Type} [Toml T]

theorem writeMetadata_good (m : Metadata T) : (writeMetadata m).Good := by
  simp [writeMetadata]

theorem writeMetadata_bytes (m : Metadata T) : (writeMetadata m).bytes =
    leBytes 4 ChunkId.metadata.code ++ (leBytes 8 (strLen (Toml.print m.inner)) ++
      utf8 (Toml.print m.inner)) := by
  simp [writeMetadata, W.bytes_seq]

theorem writeMetadata_size (m : Metadata T) : (writeMetadata m).bytes.length = metadataLen m := by
  rw [writeMetadata_bytes]; simp [metadataLen, strLen]; omega

theorem readMetadata_readsAt (m : Metadata T) (off : Nat)
    (hp : Toml.parse (Toml.print m.inner) = some m.inner)
    (hl : strLen (Toml.print m.inner) ≤ isizeMax) :
    ReadsAt readMetadata off (writeMetadata m).bytes m := by
  have hl' : strLen (Toml.print m.inner) < 2 ^ 64 := by unfold isizeMax at hl; omega
  rw [writeMetadata_bytes]
  unfold readMetadata
  refine ReadsAt.bind (ensureChunkType_readsAt (by simp)) ?_
  refine ReadsAt.bind (ReadsAt.readU64 hl') ?_
  refine ReadsAt.bind0 (ReadsAt.alloc (by omega)) ?_
  have := ReadsAt.bind (f := fun buf => (do
      let s ← lift (Res.ofOption .format (utf8Decode buf))
      let t ← lift (Res.ofOption .format (Toml.parse s))
      return (⟨t⟩ : Metadata T)))
    (ReadsAt.readExact (off + 4 + 8) (utf8 (Toml.print m.inner))) (b₂ := []) (b := m) (by
      rw [utf8Decode_utf8]
      refine ReadsAt.bind0 (ReadsAt.lift_ok _ _) ?_
      rw [hp]
      exact ReadsAt.bind0 (ReadsAt.lift_ok _ _) (ReadsAt.pure _ _))
  simpa [strLen] using this

theorem readMetadata_mono : Mono (readMetadata : Rd (Metadata T)) := by
  unfold readMetadata; mono_tac
  all_goals first | apply ensureChunkType_mono

end

/-! ## Quantized arrays -/

theorem writeQuantizedArray_eq (q : Pq F32) (codes : Mat UInt8) (norms : Option (List F32)) (off : Nat) :
    writeQuantizedArray q codes norms off =
  W.u32 ChunkId.quantizedArray.code ++
  W.u64 (quantizedArrayLen q codes.nrows norms (off + 4) - (4 + 8)) ++
  W.u32 q.projection.isSome.toNat ++ W.u32 norms.isSome.toNat ++
  W.u32 q.quantizedLen ++ W.u32 q.reconstructedLen ++ W.u32 q.nCentroids ++
  W.u64 codes.nrows ++ W.u32 u8TypeId ++ W.u32 f32TypeId ++
  W.emit (List.replicate (padding 4 (off + 4)) 0) ++
  W.each matW q.projection.toList ++ W.each matW q.quantizers ++
  W.each (W.each W.f32) norms.toList ++ W.each (W.each codeW) codes.rows := rfl

theorem writeQuantizedArray_good (q : Pq F32) (codes : Mat UInt8) (norms : Option (List F32)) (off : Nat) :
    (writeQuantizedArray q codes norms off).Good := by
  simp [writeQuantizedArray_eq, good_mats, good_f32ss, good_codess]

theorem writeQuantizedArray_bytes (q : Pq F32) (codes : Mat UInt8) (norms : Option (List F32))
    (off : Nat) : (writeQuantizedArray q codes norms off).bytes =
    leBytes 4 ChunkId.quantizedArray.code ++
    (leBytes 8 (quantizedArrayLen q codes.nrows norms (off + 4) - 12) ++
    (leBytes 4 q.projection.isSome.toNat ++ (leBytes 4 norms.isSome.toNat ++
    (leBytes 4 q.quantizedLen ++ (leBytes 4 q.reconstructedLen ++ (leBytes 4 q.nCentroids ++
    (leBytes 8 codes.nrows ++ (leBytes 4 u8TypeId ++ (leBytes 4 f32TypeId ++
    (List.replicate (padding 4 (off + 4)) 0 ++ (encodeF32s (Mat.flats q.projection.toList) ++
    (encodeF32s (Mat.flats q.quantizers) ++ (encodeF32s norms.toList.flatten ++
      codes.rows.flatten))))))))))))) := by
  simp [writeQuantizedArray_eq, W.bytes_seq, good_mats, good_f32ss, bytes_mats, bytes_f32ss,
    bytes_codess]

theorem Mat.flats_length {ms : List (Mat F32)} {n k : Nat}
    (h : ∀ m ∈ ms, m.WF ∧ m.cols = k ∧ m.nrows = n) : (Mat.flats ms).length = ms.length * (n * k) := by
  have : ∀ l ∈ ms.map (fun m : Mat F32 => m.rows.flatten), l.length = n * k := by
    intro l hl
    obtain ⟨m, hm, rfl⟩ := List.mem_map.mp hl
    obtain ⟨h1, h2, h3⟩ := h m hm
    rw [Mat.flatten_length h1, Mat.len, h2, h3]
  rw [Mat.flats, length_flatten_of this, List.length_map]

theorem QuantizedArray.projFlats_length {a : QuantizedArray F32} (h : a.WF) :
    (Mat.flats a.quantizer.projection.toList).length =
      a.quantizer.projection.isSome.toNat * a.quantizer.reconstructedLen * a.quantizer.reconstructedLen := by
  cases hp : a.quantizer.projection with
  | none => simp [Mat.flats]
  | some p =>
    obtain ⟨h1, h2, h3⟩ := h.pq.proj p hp
    rw [show (some p).toList = [p] from rfl, Mat.flats_length (n := a.quantizer.reconstructedLen)
      (k := a.quantizer.reconstructedLen) (by simp; exact ⟨h1, h2, h3⟩)]
    simp

theorem Pq.reconstructedLen_div {F : Type} {q : Pq F} (h : q.WF) :
    q.reconstructedLen / q.quantizedLen = q.subDim := by
  have : 0 < q.quantizers.length := List.length_pos_iff.mpr h.ne
  simp only [Pq.reconstructedLen, Pq.quantizedLen]
  exact Nat.mul_div_cancel_left _ this

theorem QuantizedArray.size {a : QuantizedArray F32} (h : a.WF) (off : Nat) :
    (writeQuantizedArray a.quantizer a.codes a.norms off).bytes.length =
      quantizedArrayLen a.quantizer a.codes.nrows a.norms off := by
  rw [writeQuantizedArray_bytes]
  have e1 := QuantizedArray.projFlats_length h
  have e2 := Mat.flats_length h.pq.shape
  have e3 : a.norms.toList.flatten.length = a.norms.isSome.toNat * a.codes.nrows := by
    cases hn : a.norms with
    | none => simp
    | some ns => simp [h.norms ns hn]
  have e4 : a.codes.rows.flatten.length = a.codes.nrows * a.quantizer.quantizedLen := by
    rw [Mat.flatten_length h.codes, Mat.len, h.cols]
  have e5 : a.quantizer.quantizedLen * a.quantizer.nCentroids * a.quantizer.subDim =
      a.quantizer.quantizers.length * (a.quantizer.nCentroids * a.quantizer.subDim) := by
    rw [Nat.mul_assoc]; rfl
  simp only [List.length_append, leBytes_length, List.length_replicate, encodeF32s_length, e1, e2, e3,
    e4, quantizedArrayLen, Pq.reconstructedLen_div h.pq, e5]
  omega

theorem Pq.new_eq_ok {F : Type} {q : Pq F} (h : q.WF) :
    Pq.new q.projection q.nCentroids q.subDim q.quantizers = .ok q := by
  have h1 : q.quantizers.length * q.nCentroids * q.subDim ≠ 0 := by
    have := List.length_pos_iff.mpr h.ne
    have := h.cent
    have := h.sub
    simp only [ne_eq, Nat.mul_eq_zero, not_or]
    exact ⟨⟨by omega, by assumption⟩, by assumption⟩
  have h2 : (q.projection.all fun p => p.dim = (q.quantizers.length * q.subDim,
      q.quantizers.length * q.subDim)) = true := by
    cases hp : q.projection with
    | none => rfl
    | some p =>
      obtain ⟨_, h2, h3⟩ := h.proj p hp
      simp only [Option.all_some, decide_eq_true_eq, Mat.dim, h2, h3]
      rfl
  simp only [Pq.new, h1, h2, decide_true, ne_eq, not_false_eq_true]
  rfl

theorem chunks_flats {ms : List (Mat F32)} {n k : Nat}
    (h : ∀ m ∈ ms, m.WF ∧ m.cols = k ∧ m.nrows = n) :
    (chunks ms.length (n * k) (Mat.flats ms)).map (Mat.ofFlat n k) = ms := by
  have hl : ∀ l ∈ ms.map (fun m : Mat F32 => m.rows.flatten), l.length = n * k := by
    intro l hl
    obtain ⟨m, hm, rfl⟩ := List.mem_map.mp hl
    obtain ⟨h1, h2, h3⟩ := h m hm
    rw [Mat.flatten_length h1, Mat.len, h2, h3]
  have e := chunks_flatten _ _ hl []
  simp only [List.append_nil, List.length_map] at e
  rw [Mat.flats, e, List.map_map]
  conv => rhs; rw [← List.map_id ms]
  apply List.map_congr_left
  intro m hm
  obtain ⟨h1, h2, h3⟩ := h m hm
  have := Mat.ofFlat_flatten h1
  rw [h2, h3] at this
  simpa using this

/-- Sizes that fit the chunk's fields and in memory. -/
structure QuantizedArray.Fits (a : QuantizedArray F32) : Prop where
  qlen : a.quantizer.quantizedLen < 2 ^ 32
  rlen : a.quantizer.reconstructedLen < 2 ^ 32
  cent : a.quantizer.nCentroids < 2 ^ 32
  proj : a.quantizer.projection ≠ none →
    4 * (a.quantizer.reconstructedLen * a.quantizer.reconstructedLen) ≤ isizeMax
  quant : 4 * (a.quantizer.quantizedLen * (a.quantizer.nCentroids * a.quantizer.subDim)) ≤ isizeMax
  norms : a.norms ≠ none → 4 * a.codes.nrows ≤ isizeMax
  codes : a.codes.nrows * a.quantizer.quantizedLen ≤ isizeMax

theorem prod_filter_le {dims : List Nat} (h : ∀ d ∈ dims, d ≠ 0) : (dims.filter (· ≠ 0)) = dims := by
  apply List.filter_eq_self.mpr
  intro a ha; simpa using h a ha

theorem readProjection_readsAt {a : QuantizedArray F32} (h : a.WF) (hf : a.Fits) (off : Nat) :
    ReadsAt (readProjection a.quantizer.projection.isSome.toNat a.quantizer.reconstructedLen) off
      (List.replicate (padding 4 off) 0 ++ encodeF32s (Mat.flats a.quantizer.projection.toList))
      a.quantizer.projection := by
  unfold readProjection
  have hP := hf.proj
  have hPP := h.pq.proj
  have hL := QuantizedArray.projFlats_length h
  refine ReadsAt.bind0 (ReadsAt.position off) ?_
  have hs := ReadsAt.skip off (List.replicate (padding 4 off) (0 : UInt8))
  rw [List.length_replicate] at hs
  refine ReadsAt.bind hs ?_
  cases hp : a.quantizer.projection with
  | none => simpa [Mat.flats] using ReadsAt.pure _ none
  | some p =>
    obtain ⟨w1, w2, w3⟩ := hPP p hp
    have hP' := hP (by simp [hp])
    rw [hp] at hL
    simp only [Option.isSome_some, Bool.toNat_true, Nat.one_mul] at hL
    rw [if_pos (by simp)]
    have hrl : a.quantizer.reconstructedLen ≠ 0 := by
      have := h.pq.sub
      have := h.pq.ne
      simp [Pq.reconstructedLen, Nat.mul_eq_zero, *]
    refine ReadsAt.bind0 (allocArray_readsAt ?_ (by simpa using hP')) ?_
    · rw [prod_filter_le (by simp [hrl])]
      simp; omega
    · have := ReadsAt.readF32s (off + (List.replicate (padding 4 off) (0 : UInt8)).length)
        (Mat.flats (some p).toList)
      rw [hL] at this
      have := ReadsAt.map (fun xs => some (Mat.ofFlat a.quantizer.reconstructedLen
        a.quantizer.reconstructedLen xs)) this
      have e : Mat.ofFlat a.quantizer.reconstructedLen a.quantizer.reconstructedLen
          (Mat.flats (some p).toList) = p := by
        have := Mat.ofFlat_flatten w1
        rw [w2, w3] at this
        simpa [Mat.flats] using this
      rwa [e] at this

theorem readQuantizers_readsAt {a : QuantizedArray F32} (h : a.WF) (hf : a.Fits) (off : Nat) :
    ReadsAt (readQuantizers a.quantizer.quantizedLen a.quantizer.nCentroids a.quantizer.subDim) off
      (encodeF32s (Mat.flats a.quantizer.quantizers)) a.quantizer.quantizers := by
  have hq : 0 < a.quantizer.quantizedLen := List.length_pos_iff.mpr h.pq.ne
  unfold readQuantizers
  refine ReadsAt.bind0 (allocArray_readsAt ?_ ?_) ?_
  · rw [prod_filter_le]
    · have := hf.quant
      simp; omega
    · have := h.pq.cent
      have := h.pq.sub
      simp; omega
  · simpa using hf.quant
  · have := ReadsAt.readF32s off (Mat.flats a.quantizer.quantizers)
    rw [Mat.flats_length h.pq.shape] at this
    have := ReadsAt.map (fun xs => (chunks a.quantizer.quantizers.length
      (a.quantizer.nCentroids * a.quantizer.subDim) xs).map
        (Mat.ofFlat a.quantizer.nCentroids a.quantizer.subDim)) this
    rw [chunks_flats h.pq.shape] at this
    exact this

theorem readPq_readsAt {a : QuantizedArray F32} (h : a.WF) (hf : a.Fits) (off o : Nat)
    (hoff : off % 4 = o % 4) :
    ReadsAt readPq off
      (leBytes 4 a.quantizer.projection.isSome.toNat ++ (leBytes 4 a.norms.isSome.toNat ++
      (leBytes 4 a.quantizer.quantizedLen ++ (leBytes 4 a.quantizer.reconstructedLen ++
      (leBytes 4 a.quantizer.nCentroids ++
      (leBytes 8 a.codes.nrows ++ (leBytes 4 u8TypeId ++ (leBytes 4 f32TypeId ++
      ((List.replicate (padding 4 o) 0 ++ encodeF32s (Mat.flats a.quantizer.projection.toList)) ++
      encodeF32s (Mat.flats a.quantizer.quantizers))))))))))
      ⟨a.codes.nrows, a.quantizer, a.norms.isSome⟩ := by
  have hq : 0 < a.quantizer.quantizedLen := List.length_pos_iff.mpr h.pq.ne
  have hrows : a.codes.nrows < 2 ^ 64 := by
    have := hf.codes
    have := Nat.le_mul_of_pos_right a.codes.nrows hq
    unfold isizeMax at *; omega
  have hb : ∀ b : Bool, b.toNat < 2 ^ 32 := by intro b; cases b <;> decide
  unfold readPq
  refine ReadsAt.bind (ReadsAt.readU32 (hb _)) ?_
  refine ReadsAt.bind (ReadsAt.readU32 (hb _)) ?_
  refine ReadsAt.bind (ReadsAt.readU32 hf.qlen) ?_
  refine ReadsAt.bind (ReadsAt.readU32 hf.rlen) ?_
  refine ReadsAt.bind (ReadsAt.readU32 hf.cent) ?_
  refine ReadsAt.bind (ReadsAt.readU64 hrows) ?_
  simp only [leBytes_length]
  refine ReadsAt.bind0 (a := ()) ?_ ?_
  · rw [decide_eq_true (by omega : a.quantizer.quantizedLen ≠ 0)]
    exact ReadsAt.lift_ok _ _
  rw [if_neg (by simp [Pq.reconstructedLen, Pq.quantizedLen])]
  refine ReadsAt.bind (ensureDataType_readsAt (by decide)) ?_
  refine ReadsAt.bind (ensureDataType_readsAt (by decide)) ?_
  simp only [leBytes_length, Pq.reconstructedLen_div h.pq]
  have hp := readProjection_readsAt h hf (off + 4 + 4 + 4 + 4 + 4 + 8 + 4 + 4)
  rw [show padding 4 (off + 4 + 4 + 4 + 4 + 4 + 8 + 4 + 4) = padding 4 o by unfold padding; omega] at hp
  refine ReadsAt.bind hp ?_
  have hz := readQuantizers_readsAt h hf (off + 4 + 4 + 4 + 4 + 4 + 8 + 4 + 4 +
    (List.replicate (padding 4 o) (0 : UInt8) ++ encodeF32s (Mat.flats a.quantizer.projection.toList)).length)
  have := ReadsAt.bind hz (f := fun qs => (do
    let q ← lift (Pq.new a.quantizer.projection a.quantizer.nCentroids a.quantizer.subDim qs)
    return (⟨a.codes.nrows, q, decide (a.norms.isSome.toNat ≠ 0)⟩ : PqRead)))
    (b₂ := []) (b := ⟨a.codes.nrows, a.quantizer, a.norms.isSome⟩) (by
      rw [Pq.new_eq_ok h.pq]
      refine ReadsAt.bind0 (ReadsAt.lift_ok _ _) ?_
      have : decide (a.norms.isSome.toNat ≠ 0) = a.norms.isSome := by cases a.norms <;> rfl
      rw [this]
      exact ReadsAt.pure _ _)
  simpa only [List.append_nil] using this

theorem readQuantizedNorms_readsAt {a : QuantizedArray F32} (h : a.WF) (hf : a.Fits) (off : Nat) :
    ReadsAt (readQuantizedNorms a.norms.isSome a.codes.nrows) off (encodeF32s a.norms.toList.flatten)
      a.norms := by
  unfold readQuantizedNorms
  have hN := hf.norms
  have hNN := h.norms
  cases hn : a.norms with
  | none => simpa using ReadsAt.pure off none
  | some ns =>
    rw [if_pos Option.isSome_some]
    have h4 := hN (by simp [hn])
    refine ReadsAt.bind0 (allocArray_readsAt ?_ (by simpa using h4)) ?_
    · by_cases h0 : a.codes.nrows = 0
      · simp [h0, isizeMax]
      · simp [h0]; omega
    · have := ReadsAt.map some (ReadsAt.readF32s off ns)
      rw [hNN ns hn] at this
      simpa using this

theorem readQuantizedHead_readsAt {a : QuantizedArray F32} (h : a.WF) (hf : a.Fits) (off len : Nat) :
    ReadsAt readQuantizedHead off
      (leBytes 4 ChunkId.quantizedArray.code ++ (leBytes 8 len ++
      ((leBytes 4 a.quantizer.projection.isSome.toNat ++ (leBytes 4 a.norms.isSome.toNat ++
      (leBytes 4 a.quantizer.quantizedLen ++ (leBytes 4 a.quantizer.reconstructedLen ++
      (leBytes 4 a.quantizer.nCentroids ++
      (leBytes 8 a.codes.nrows ++ (leBytes 4 u8TypeId ++ (leBytes 4 f32TypeId ++
      ((List.replicate (padding 4 (off + 4)) 0 ++ encodeF32s (Mat.flats a.quantizer.projection.toList)) ++
      encodeF32s (Mat.flats a.quantizer.quantizers)))))))))) ++ encodeF32s a.norms.toList.flatten)))
      (⟨a.codes.nrows, a.quantizer, a.norms.isSome⟩, a.norms) := by
  unfold readQuantizedHead
  refine ReadsAt.bind (ensureChunkType_readsAt (by simp)) ?_
  obtain ⟨x, hx⟩ := readU64_any (off := off + (leBytes 4 ChunkId.quantizedArray.code).length) len
  refine ReadsAt.bind hx ?_
  simp only [leBytes_length]
  refine ReadsAt.bind (readPq_readsAt h hf _ _ (by omega)) ?_
  exact ReadsAt.map (fun norms => ((⟨a.codes.nrows, a.quantizer, a.norms.isSome⟩ : PqRead), norms))
    (readQuantizedNorms_readsAt h hf _)

theorem readQuantizedArray_readsAt {a : QuantizedArray F32} (h : a.WF) (hf : a.Fits) (off : Nat) :
    ReadsAt readQuantizedArray off (writeQuantizedArray a.quantizer a.codes a.norms off).bytes a := by
  have hq : 0 < a.quantizer.quantizedLen := List.length_pos_iff.mpr h.pq.ne
  rw [writeQuantizedArray_bytes]
  have e := readQuantizedHead_readsAt h hf off (quantizedArrayLen a.quantizer a.codes.nrows a.norms (off + 4) - 12)
  unfold readQuantizedArray
  have := ReadsAt.bind (f := fun x : PqRead × Option (List F32) => (do
      allocArray 1 [x.1.nEmbeddings, x.1.quantizer.quantizedLen]
      let cs ← readExact (x.1.nEmbeddings * x.1.quantizer.quantizedLen)
      return (⟨x.1.quantizer, Mat.ofFlat x.1.nEmbeddings x.1.quantizer.quantizedLen cs, x.2⟩ :
        QuantizedArray F32))) e (b₂ := a.codes.rows.flatten) (b := a) (by
      refine ReadsAt.bind0 (allocArray_readsAt ?_ (by simpa using hf.codes)) ?_
      · have := hf.codes
        have hq' : a.quantizer.quantizedLen ≠ 0 := by omega
        have hql := hf.qlen
        by_cases h0 : a.codes.nrows = 0
        · simp [h0, hq', isizeMax]; omega
        · simp [h0, hq']; omega
      · generalize off + List.length _ = O
        have := ReadsAt.readExact O a.codes.rows.flatten
        rw [Mat.flatten_length h.codes, Mat.len, h.cols] at this
        have := ReadsAt.map (fun cs => (⟨a.quantizer,
          Mat.ofFlat a.codes.nrows a.quantizer.quantizedLen cs, a.norms⟩ : QuantizedArray F32)) this
        have e := Mat.ofFlat_flatten h.codes
        rw [h.cols] at e
        rw [e] at this
        exact this)
  simpa only [List.append_assoc] using this

theorem readPq_mono : Mono readPq := by
  unfold readPq readProjection readQuantizers; mono_tac
  all_goals first | apply ensureDataType_mono | apply allocArray_mono

theorem readQuantizedHead_mono : Mono readQuantizedHead := by
  unfold readQuantizedHead readQuantizedNorms; mono_tac
  all_goals first | apply ensureChunkType_mono | apply readPq_mono | apply allocArray_mono

theorem readQuantizedArray_mono : Mono readQuantizedArray := by
  unfold readQuantizedArray
  refine readQuantizedHead_mono.bind fun _ => ?_
  mono_tac
  all_goals apply allocArray_mono

end FF
