import Verif.Props.Position
import Verif.Props.Outcomes
import Verif.Props.FastText

/-!
# C97: which errors the readers report, and what they mean
-/

namespace FF

open Rd

/-! ## Kinds of errors -/

/-- Specification: if the outcome is an error, it is one of the given ones. -/
def Kinds {α : Type} (S : List Err) (r : Res α) : Prop := ∀ e, r = .err e → e ∈ S

/-- The same of a reader, wherever it starts. -/
structure RdKinds {α : Type} (S : List Err) (p : Rd α) : Prop where
  kinds : ∀ d pos, Kinds S (p d pos)

namespace Kinds
variable {α β : Type} {S : List Err}

theorem of_noErr {r : Res α} (h : Res.NoErr r) : Kinds S r := fun e he => absurd he (h e)
theorem ok (a : α) : Kinds S (.ok a) := of_noErr (Res.noErr_ok a)
theorem panic : Kinds S (.panic : Res α) := of_noErr Res.noErr_panic
theorem assert (c : Bool) : Kinds S (Res.assert c) := of_noErr (Res.noErr_assert c)
theorem err {e : Err} (h : e ∈ S) : Kinds S (.err e : Res α) := fun e' he => by cases he; exact h
theorem option {e : Err} (h : e ∈ S) (o : Option α) : Kinds S (Res.ofOption e o) := by
  cases o
  · exact err h
  · exact ok _
theorem bind {r : Res α} {f : α → Res β} (h : Kinds S r) (hf : ∀ a, Kinds S (f a)) : Kinds S (r >>= f) := by
  cases r with
  | ok a => exact hf a
  | err e => exact err (h e rfl)
  | panic => exact panic
theorem mapM {f : α → Res β} (h : ∀ a, Kinds S (f a)) (l : List α) : Kinds S (l.mapM f) := by
  induction l with
  | nil => exact ok _
  | cons a l ih =>
    rw [List.mapM_cons]
    exact bind (h a) fun _ => bind ih fun _ => ok _

end Kinds

namespace RdKinds
variable {α β : Type} {S : List Err}

theorem pure (a : α) : RdKinds S (pure a : Rd α) := ⟨fun _ _ => .ok _⟩
theorem fail {e : Err} (h : e ∈ S) : RdKinds S (fail e : Rd α) := ⟨fun _ _ => .err h⟩
theorem lift {r : Res α} (h : Kinds S r) : RdKinds S (lift r) := ⟨fun d pos => by
  show Kinds S (Rd.lift r d pos)
  unfold Rd.lift
  cases r with
  | ok a => exact .ok _
  | err e => exact .err (h e rfl)
  | panic => exact .panic⟩
theorem bind {p : Rd α} {f : α → Rd β} (h : RdKinds S p) (hf : ∀ a, RdKinds S (f a)) : RdKinds S (p >>= f) := by
  refine ⟨fun d pos => ?_⟩
  rw [bind_apply]
  exact .bind (h.kinds d pos) fun r => (hf r.1).kinds d r.2
theorem ite {c : Prop} [Decidable c] {p q : Rd α} (hp : RdKinds S p) (hq : RdKinds S q) : RdKinds S (if c then p else q) := by
  split
  · exact hp
  · exact hq
theorem position : RdKinds S position := ⟨fun _ _ => .ok _⟩
theorem skip (n : Nat) : RdKinds S (skip n) := ⟨fun _ _ => .ok _⟩
theorem alloc (s n : Nat) : RdKinds S (alloc s n) := lift (.assert _)
theorem allocArray (s : Nat) (l : List Nat) : RdKinds S (allocArray s l) := lift (.assert _)
theorem replicateM {p : Rd α} (h : RdKinds S p) (n : Nat) : RdKinds S (replicateM n p) := by
  induction n with
  | zero => exact pure _
  | succ n ih => exact bind h fun _ => bind ih fun _ => pure _

section
variable (hio : .io ∈ S)
include hio

theorem readExact (n : Nat) : RdKinds S (readExact n) := ⟨fun d pos => by
  unfold Rd.readExact
  split
  · exact .ok _
  · split
    · exact .ok _
    · exact .err hio⟩

theorem readU32 : RdKinds S readU32 := bind (readExact hio 4) fun _ => pure _
theorem readU64 : RdKinds S readU64 := bind (readExact hio 8) fun _ => pure _
theorem readF32s (n : Nat) : RdKinds S (readF32s n) := bind (readExact hio _) fun _ => pure _

end

theorem readToken (hf : .format ∈ S) (delim : UInt8) (lossy : Bool) : RdKinds S (readToken delim lossy) := by
  refine bind ⟨fun _ _ => .ok _⟩ fun _ => lift ?_
  unfold decodeToken
  split
  · exact .ok _
  · exact .option hf _

theorem readNumber (hf : .format ∈ S) (delim : UInt8) : RdKinds S (readNumber delim) :=
  bind (readToken hf _ _) fun _ => lift (.option hf _)

end RdKinds

/-- Decomposes a goal `RdKinds` along the structure of a reader. -/
macro "kinds_tac" : tactic => `(tactic|
  repeat' (first
    | with_reducible exact RdKinds.pure _ | with_reducible exact RdKinds.lift (.assert _)
    | with_reducible exact RdKinds.lift (.option (by assumption) _) | with_reducible exact RdKinds.fail (by assumption)
    | with_reducible exact RdKinds.alloc _ _ | with_reducible exact RdKinds.allocArray _ _
    | with_reducible exact RdKinds.readExact (by assumption) _ | with_reducible exact RdKinds.readU32 (by assumption)
    | with_reducible exact RdKinds.readU64 (by assumption) | with_reducible exact RdKinds.readF32s (by assumption) _
    | with_reducible exact RdKinds.position | with_reducible exact RdKinds.skip _
    | with_reducible exact RdKinds.readToken (by assumption) _ _ | with_reducible exact RdKinds.readNumber (by assumption) _
    | with_reducible apply RdKinds.replicateM | assumption
    | with_reducible apply RdKinds.bind | with_reducible apply RdKinds.ite | split | (intro _)))

/-! ## finalfusion files -/

section
variable {S : List Err} (hio : .io ∈ S) (hf : .format ∈ S)
include hio

theorem kinds_chunkId (hu : .unknownChunk ∈ S) : RdKinds S readChunkId := by unfold readChunkId; kinds_tac

theorem kinds_mapRegion (n : Nat) : RdKinds S (mapRegion n) := by
  refine ⟨fun d pos => ?_⟩
  unfold mapRegion
  split
  · exact .ok _
  · exact .err hio

theorem kinds_peek (hu : .unknownChunk ∈ S) : RdKinds S peekChunkId := by
  refine ⟨fun d pos => ?_⟩
  unfold peekChunkId
  have := (kinds_chunkId hio hu).kinds d pos
  cases hr : readChunkId d pos with
  | ok r => exact .ok _
  | err e => exact .err (this e hr)
  | panic => exact .panic

include hf

theorem kinds_ensureDataType (i : Nat) : RdKinds S (ensureDataType i) := by unfold ensureDataType; kinds_tac
theorem kinds_string : RdKinds S readString := by unfold readString; kinds_tac
theorem kinds_ngram : RdKinds S readNgram := by unfold readNgram; kinds_tac
theorem kinds_items (n : Nat) : RdKinds S (readVocabItems n) := by
  have := kinds_string hio hf
  unfold readVocabItems; kinds_tac
theorem kinds_pq : RdKinds S readPq := by
  have h1 := kinds_ensureDataType hio hf f32TypeId
  have h2 := kinds_ensureDataType hio hf u8TypeId
  unfold readPq readProjection readQuantizers
  kinds_tac
  all_goals exact .lift (.of_noErr (Pq.new_noErr _ _ _ _))

theorem kinds_ensureChunkType (hu : .unknownChunk ∈ S) (i : ChunkId) : RdKinds S (ensureChunkType i) := by
  have := kinds_chunkId hio hu
  unfold ensureChunkType; kinds_tac
theorem kinds_header (hu : .unknownChunk ∈ S) : RdKinds S Header.read := by
  have := kinds_chunkId hio hu
  unfold Header.read; kinds_tac

end

/-- The kinds of errors of finalfusion readers. -/
abbrev ffKinds : List Err := [.io, .format, .unknownChunk]

/-- Specification: the four bytes at a position are not the number of a kind of chunk. -/
def NotAChunk (d : Bytes) (pos : Nat) : Prop := ∃ c, u32At d pos = some c ∧ ¬(1 ≤ c ∧ c ≤ 9)

/-- Errors of a chunk reader: the kinds of finalfusion readers, and an unknown chunk identifier exactly if there is none at
the position. -/
structure ChunkKinds {α : Type} (p : Rd α) : Prop where
  kinds : RdKinds ffKinds p
  unknown : ∀ d pos, p d pos = .err .unknownChunk ↔ NotAChunk d pos

theorem ofCode_eq_none {c : Nat} : ChunkId.ofCode c = none ↔ ¬(1 ≤ c ∧ c ≤ 9) := by
  constructor
  · rintro h ⟨h1, h2⟩
    have : c = 1 ∨ c = 2 ∨ c = 3 ∨ c = 4 ∨ c = 5 ∨ c = 6 ∨ c = 7 ∨ c = 8 ∨ c = 9 := by omega
    rcases this with rfl | rfl | rfl | rfl | rfl | rfl | rfl | rfl | rfl <;> cases h
  · intro h
    unfold ChunkId.ofCode
    split <;> first | rfl | omega

theorem readChunkId_unknown (d : Bytes) (pos : Nat) : readChunkId d pos = .err .unknownChunk ↔ NotAChunk d pos := by
  unfold readChunkId NotAChunk
  rw [bind_apply]
  cases h : readU32 d pos with
  | ok r =>
    obtain ⟨h1, -⟩ := readU32_ok h
    show Rd.lift (Res.ofOption .unknownChunk (ChunkId.ofCode r.1)) d r.2 = _ ↔ _
    rw [h1]
    constructor
    · intro h2
      refine ⟨_, rfl, ofCode_eq_none.mp ?_⟩
      cases h3 : ChunkId.ofCode r.1 with
      | none => rfl
      | some i => rw [h3] at h2; cases h2
    · rintro ⟨c, hc, h2⟩
      cases hc
      rw [ofCode_eq_none.mpr h2]
      rfl
  | err e =>
    have := (RdKinds.readU32 (S := [.io]) (by decide)).kinds d pos e h
    constructor
    · intro h2
      cases h2
      simp at this
    · rintro ⟨c, hc, -⟩
      rw [readU32_some hc] at h
      cases h
  | panic =>
    constructor
    · intro h2; cases h2
    · rintro ⟨c, hc, -⟩
      rw [readU32_some hc] at h
      cases h

theorem ChunkKinds.ensure {α : Type} {i : ChunkId} {f : Unit → Rd α} (hf : RdKinds [.io, .format] (f ())) :
    ChunkKinds (ensureChunkType i >>= f) := by
  refine ⟨.bind (kinds_ensureChunkType (by decide) (by decide) (by decide) i) fun _ => ⟨fun d pos e h => ?_⟩, fun d pos => ?_⟩
  · have := hf.kinds d pos e h
    simp at this
    rcases this with rfl | rfl <;> decide
  · rw [← readChunkId_unknown]
    unfold ensureChunkType
    rw [bind_apply, bind_apply]
    cases h : readChunkId d pos with
    | err e => simp
    | panic => simp
    | ok r =>
      refine ⟨fun h2 => ?_, fun h => by cases h⟩
      exfalso
      rw [Res.ok_bind] at h2
      by_cases hi : r.1 ≠ i
      · rw [if_pos hi] at h2; cases h2
      · rw [if_neg hi] at h2
        have := hf.kinds d r.2 _ h2
        simp at this

theorem noErr_simple (ws : List Str) : Res.NoErr (SimpleVocab.new ws) := by
  unfold SimpleVocab.new
  exact Res.noErr_bind (Res.noErr_assert _) fun _ => Res.noErr_ok _
theorem noErr_hashBound (ix : HashIndexer) : Res.NoErr (Indexer.upperBound ix) := by
  show Res.NoErr (HashIndexer.upperBound ix)
  unfold HashIndexer.upperBound
  split
  · exact Res.noErr_ok _
  · exact Res.noErr_panic
theorem noErr_hashNew (n : Nat) : Res.NoErr (HashIndexer.new n) := by
  unfold HashIndexer.new
  exact Res.noErr_bind (Res.noErr_assert _) fun _ => Res.noErr_ok _
theorem noErr_fastTextNew (n : Nat) : Res.NoErr (FastTextIndexer.new n) := by
  unfold FastTextIndexer.new
  exact Res.noErr_bind (Res.noErr_assert _) fun _ => Res.noErr_ok _
theorem noErr_floretNew (n h : Nat) (s : UInt32) : Res.NoErr (FloretIndexer.new n h s) := by
  unfold FloretIndexer.new
  exact Res.noErr_bind (Res.noErr_assert _) fun _ => Res.noErr_bind (Res.noErr_assert _) fun _ => Res.noErr_ok _

theorem io_mem : Err.io ∈ [Err.io, Err.format] := by decide
theorem format_mem : Err.format ∈ [Err.io, Err.format] := by decide

theorem chunkKinds_metadata {T : Type} [Toml T] : ChunkKinds (readMetadata : Rd (Metadata T)) := by
  have := io_mem
  have := format_mem
  refine .ensure ?_
  kinds_tac

theorem kinds_optMetadata {T : Type} [Toml T] : RdKinds ffKinds (readOptMetadata : Rd (Option (Metadata T))) := by
  have hf : Err.format ∈ ffKinds := by decide
  have := kinds_header (S := ffKinds) (by decide) hf (by decide)
  have := (chunkKinds_metadata (T := T)).kinds
  unfold readOptMetadata; kinds_tac

theorem chunkKinds_simple : ChunkKinds SimpleVocab.read := by
  have h1 := io_mem
  have h2 := format_mem
  have := kinds_items h1 h2
  refine .ensure ?_
  kinds_tac
  · exact this _
  · exact .lift (.of_noErr (noErr_simple _))

theorem chunkKinds_bucketed {I : Type} [BucketIndexer I] (h : ∀ ix : I, Res.NoErr (Indexer.upperBound ix))
    (hn : ∀ n, Res.NoErr (BucketIndexer.newBuckets n : Res I)) (id : ChunkId) :
    ChunkKinds (readBucketed id : Rd (SubwordVocab I)) := by
  have h1 := io_mem
  have h2 := format_mem
  have := kinds_items h1 h2
  refine .ensure ?_
  kinds_tac
  · exact this _
  · exact .lift (.of_noErr (hn _))
  · exact .lift (.of_noErr (noErr_newWithBoundaries h _ _ _ _ _ _))

theorem chunkKinds_explicit : ChunkKinds readExplicit := by
  have h1 := io_mem
  have h2 := format_mem
  have h3 := kinds_items h1 h2
  have h4 := kinds_ngram h1 h2
  refine .ensure ?_
  unfold readNgrams
  kinds_tac
  · exact h3 _
  · refine .lift (.of_noErr ?_)
    rw [newWithIndices_eq]
    split
    · exact Res.noErr_ok _
    · exact Res.noErr_panic
  · exact .lift (.of_noErr (noErr_newWithBoundaries (fun ix => Res.noErr_ok _) _ _ _ _ _ _))

theorem chunkKinds_floret : ChunkKinds readFloret := by
  have h1 := io_mem
  have h2 := format_mem
  have h4 := kinds_string h1 h2
  refine .ensure ?_
  kinds_tac
  · exact .lift (.of_noErr (noErr_floretNew _ _ _))
  · exact .lift (.of_noErr (noErr_newWithBoundaries (fun ix => Res.noErr_ok _) _ _ _ _ _ _))

/-- The rest of a reader that reads the head of a matrix first. -/
theorem ChunkKinds.then {α β : Type} {p : Rd α} {f : α → Rd β} (hp : ChunkKinds p) (hf : ∀ a, RdKinds [.io, .format] (f a)) :
    ChunkKinds (p >>= f) := by
  refine ⟨.bind hp.kinds fun a => ⟨fun d pos e h => ?_⟩, fun d pos => ?_⟩
  · have := (hf a).kinds d pos e h
    simp at this
    rcases this with rfl | rfl <;> decide
  · rw [← hp.unknown, bind_apply]
    cases h : p d pos with
    | err e => simp
    | panic => simp
    | ok r =>
      refine ⟨fun h2 => ?_, fun h => by cases h⟩
      have := (hf r.1).kinds d r.2 _ h2
      simp at this

theorem chunkKinds_arrayHead : ChunkKinds readNdArrayHead := by
  have h1 := io_mem
  have h2 := format_mem
  have h4 := kinds_ensureDataType h1 h2 f32TypeId
  refine .ensure ?_
  kinds_tac

theorem chunkKinds_array : ChunkKinds readNdArray := by
  have h1 := io_mem
  refine .then chunkKinds_arrayHead fun a => ?_
  kinds_tac

theorem chunkKinds_quantizedHead : ChunkKinds readQuantizedHead := by
  have h1 := io_mem
  have h2 := format_mem
  have h4 := kinds_pq h1 h2
  refine .ensure ?_
  unfold readQuantizedNorms
  kinds_tac

theorem chunkKinds_quantized : ChunkKinds readQuantizedArray := by
  have h1 := io_mem
  refine .then chunkKinds_quantizedHead fun a => ?_
  kinds_tac

theorem chunkKinds_norms : ChunkKinds readNorms := by
  have h1 := io_mem
  have h2 := format_mem
  have h4 := kinds_ensureDataType h1 h2 f32TypeId
  refine .ensure ?_
  kinds_tac

theorem chunkKinds_mmapArray : ChunkKinds mmapNdArray := by
  have h2 := kinds_mapRegion io_mem
  refine .then chunkKinds_arrayHead fun a => ?_
  kinds_tac
  exact h2 _

theorem chunkKinds_mmapQuantized : ChunkKinds mmapQuantizedArray := by
  have h2 := kinds_mapRegion io_mem
  refine .then chunkKinds_quantizedHead fun a => ?_
  kinds_tac
  exact h2 _

/-- Looking at the identifier first and then reading the chunk. -/
theorem ChunkKinds.peek {α : Type} {f : ChunkId → Rd α} (hf : ∀ i, ChunkKinds (f i) ∨ f i = Rd.fail .format) :
    ChunkKinds (peekChunkId >>= f) := by
  refine ⟨.bind (kinds_peek (by decide) (by decide)) fun i => ?_, fun d pos => ?_⟩
  · rcases hf i with h | h
    · exact h.kinds
    · rw [h]; exact .fail (by decide)
  · rw [← readChunkId_unknown, bind_apply]
    unfold peekChunkId
    cases h : readChunkId d pos with
    | err e => simp
    | panic => simp
    | ok r =>
      refine ⟨fun h2 => ?_, fun h => by cases h⟩
      rcases hf r.1 with h3 | h3
      · have := (readChunkId_unknown d pos).mpr ((h3.unknown d pos).mp h2)
        rw [h] at this
        cases this
      · exfalso
        change f r.1 d pos = _ at h2
        rw [h3] at h2
        cases h2

theorem ChunkKinds.map {α β : Type} {p : Rd α} (hp : ChunkKinds p) (g : α → β) :
    ChunkKinds (do return g (← p)) := hp.then fun _ => .pure _

theorem chunkKinds_vocabWrap : ChunkKinds readVocabWrap := by
  have h1 : ChunkKinds (readChunk : Rd SimpleVocab) := chunkKinds_simple
  have h2 : ChunkKinds (readChunk : Rd BucketSubwordVocab) := chunkKinds_bucketed noErr_hashBound noErr_hashNew _
  have h3 : ChunkKinds (readChunk : Rd FastTextSubwordVocab) :=
    chunkKinds_bucketed (fun _ => Res.noErr_ok _) noErr_fastTextNew _
  have h4 : ChunkKinds (readChunk : Rd ExplicitSubwordVocab) := chunkKinds_explicit
  have h5 : ChunkKinds (readChunk : Rd FloretSubwordVocab) := chunkKinds_floret
  refine .peek fun i => ?_
  cases i <;> first
    | exact .inr rfl | exact .inl (h1.map _) | exact .inl (h2.map _) | exact .inl (h3.map _) | exact .inl (h4.map _)
    | exact .inl (h5.map _)

theorem chunkKinds_storageWrap : ChunkKinds readStorageWrap := by
  have h1 : ChunkKinds (readChunk : Rd (NdArray F32)) := chunkKinds_array
  have h2 : ChunkKinds (readChunk : Rd (QuantizedArray F32)) := chunkKinds_quantized
  refine .peek fun i => ?_
  cases i <;> first | exact .inr rfl | exact .inl (h1.map _) | exact .inl (h2.map _)

theorem chunkKinds_mmapStorageWrap : ChunkKinds mmapStorageWrap := by
  refine .peek fun i => ?_
  cases i <;> first | exact .inr rfl | exact .inl (chunkKinds_mmapArray.map _) | exact .inl (chunkKinds_mmapQuantized.map _)

theorem kinds_readWith {T V S : Type} [Toml T] [ReadChunk V] {p : Rd S} (hv : RdKinds ffKinds (readChunk : Rd V))
    (hp : RdKinds ffKinds p) (d : Bytes) (pos : Nat) :
    Kinds ffKinds (Embeddings.readWith p d pos : Res (Embeddings T V S F32)) := by
  unfold Embeddings.readWith
  refine .bind ?_ fun r => .bind (hp.kinds d _) fun r => .bind (.of_noErr ?_) fun _ => .ok _
  · have h1 := kinds_optMetadata (T := T)
    have : RdKinds ffKinds (Embeddings.readHead (T := T) (V := V)) := by
      unfold Embeddings.readHead
      kinds_tac
    exact this.kinds d pos
  · intro e h
    cases hr : (readChunk : Rd (NdNorms F32)) d r.2 <;> rw [hr] at h <;> cases h

/-- C97, finalfusion data: the readers of all chunks, of whole embeddings (in memory and mapped) and of the metadata alone
report no other errors than I/O errors, errors in the format and unknown chunk identifiers. -/
theorem c97_finalfusion {T : Type} [Toml T] (d : Bytes) (pos : Nat) :
    Kinds ffKinds (Header.read d pos) ∧
    Kinds ffKinds ((readMetadata : Rd (Metadata T)) d pos) ∧
    Kinds ffKinds ((readOptMetadata : Rd (Option (Metadata T))) d pos) ∧
    Kinds ffKinds ((readChunk : Rd VocabWrap) d pos) ∧
    Kinds ffKinds ((readChunk : Rd StorageWrap) d pos) ∧
    Kinds ffKinds (mmapStorageWrap d pos) ∧
    Kinds ffKinds ((readChunk : Rd (NdNorms F32)) d pos) ∧
    Kinds ffKinds (Embeddings.read d pos : Res (Embeddings T VocabWrap StorageWrap F32)) ∧
    Kinds ffKinds (Embeddings.mmap mmapStorageWrap d pos : Res (Embeddings T VocabWrap StorageWrap F32)) :=
  ⟨(kinds_header (by decide) (by decide) (by decide)).kinds d pos, chunkKinds_metadata.kinds.kinds d pos,
    kinds_optMetadata.kinds d pos, chunkKinds_vocabWrap.kinds.kinds d pos, chunkKinds_storageWrap.kinds.kinds d pos,
    chunkKinds_mmapStorageWrap.kinds.kinds d pos, chunkKinds_norms.kinds.kinds d pos,
    kinds_readWith chunkKinds_vocabWrap.kinds chunkKinds_storageWrap.kinds d pos,
    kinds_readWith chunkKinds_vocabWrap.kinds chunkKinds_mmapStorageWrap.kinds d pos⟩

/-- C97, unknown chunks: reading or mapping a chunk, of a given type or of any, reports an unknown chunk identifier exactly if
the four bytes at the position are there and are not a number from 1 to 9. -/
theorem c97_unknown {T : Type} [Toml T] (d : Bytes) (pos : Nat) :
    ((readMetadata : Rd (Metadata T)) d pos = .err .unknownChunk ↔ NotAChunk d pos) ∧
    ((readChunk : Rd VocabWrap) d pos = .err .unknownChunk ↔ NotAChunk d pos) ∧
    ((readChunk : Rd SimpleVocab) d pos = .err .unknownChunk ↔ NotAChunk d pos) ∧
    ((readChunk : Rd BucketSubwordVocab) d pos = .err .unknownChunk ↔ NotAChunk d pos) ∧
    ((readChunk : Rd FastTextSubwordVocab) d pos = .err .unknownChunk ↔ NotAChunk d pos) ∧
    ((readChunk : Rd ExplicitSubwordVocab) d pos = .err .unknownChunk ↔ NotAChunk d pos) ∧
    ((readChunk : Rd FloretSubwordVocab) d pos = .err .unknownChunk ↔ NotAChunk d pos) ∧
    ((readChunk : Rd StorageWrap) d pos = .err .unknownChunk ↔ NotAChunk d pos) ∧
    ((readChunk : Rd (NdArray F32)) d pos = .err .unknownChunk ↔ NotAChunk d pos) ∧
    ((readChunk : Rd (QuantizedArray F32)) d pos = .err .unknownChunk ↔ NotAChunk d pos) ∧
    (mmapStorageWrap d pos = .err .unknownChunk ↔ NotAChunk d pos) ∧
    (mmapNdArray d pos = .err .unknownChunk ↔ NotAChunk d pos) ∧
    (mmapQuantizedArray d pos = .err .unknownChunk ↔ NotAChunk d pos) ∧
    ((readChunk : Rd (NdNorms F32)) d pos = .err .unknownChunk ↔ NotAChunk d pos) :=
  ⟨chunkKinds_metadata.unknown d pos, chunkKinds_vocabWrap.unknown d pos, chunkKinds_simple.unknown d pos,
    (chunkKinds_bucketed noErr_hashBound noErr_hashNew _).unknown d pos,
    (chunkKinds_bucketed (fun _ => Res.noErr_ok _) noErr_fastTextNew _).unknown d pos, chunkKinds_explicit.unknown d pos,
    chunkKinds_floret.unknown d pos, chunkKinds_storageWrap.unknown d pos, chunkKinds_array.unknown d pos,
    chunkKinds_quantized.unknown d pos, chunkKinds_mmapStorageWrap.unknown d pos, chunkKinds_mmapArray.unknown d pos,
    chunkKinds_mmapQuantized.unknown d pos, chunkKinds_norms.unknown d pos⟩

example : NotAChunk [10, 0, 0, 0] 0 ∧ ¬NotAChunk [9, 0, 0, 0] 0 ∧ ¬NotAChunk [10, 0, 0] 0 := by
  refine ⟨⟨10, by decide +kernel, by omega⟩, ?_, ?_⟩
  · rintro ⟨c, h1, h2⟩
    rw [show u32At [9, 0, 0, 0] 0 = some 9 by decide +kernel] at h1
    cases h1
    omega
  · rintro ⟨c, h1, h2⟩
    rw [show u32At [10, 0, 0] 0 = none by decide +kernel] at h1
    cases h1

/-! ## Text -/

theorem noErr_newWithMaybeNorms {T V S F : Type} [Vocab V] [Storage S F] (hv : ∀ v : V, Res.NoErr (Vocab.vocabLen v))
    (m : Option (Metadata T)) (v : V) (s : S) (n : Option (NdNorms F)) :
    Res.NoErr (Embeddings.newWithMaybeNorms m v s n) := by
  unfold Embeddings.newWithMaybeNorms
  exact Res.noErr_bind (hv v) fun _ => Res.noErr_bind (Res.noErr_assert _) fun _ => Res.noErr_ok _

section
variable {T F : Type} [Scalar F]

theorem noErr_normalizeRead (e : Embeddings T SimpleVocab (NdArray F) F) : Res.NoErr (Embeddings.normalizeRead e) := by
  unfold Embeddings.normalizeRead Embeddings.new
  exact Res.noErr_bind (Res.noErr_assert _) fun _ => noErr_newWithMaybeNorms (fun _ => Res.noErr_ok _) _ _ _ _

/-- A computation that cannot fail does not change the errors of what comes before. -/
theorem bind_err_iff {α β : Type} {r : Res α} {f : α → Res β} (hf : ∀ a, Res.NoErr (f a)) (e : Err) :
    r >>= f = .err e ↔ r = .err e := by
  cases r with
  | ok a => exact ⟨fun h => absurd h (hf a e), fun h => by cases h⟩
  | err e' => simp
  | panic => simp

/-- The kinds of errors of text readers. -/
abbrev textKinds : List Err := [.format, .shape]

variable [FloatText F]

omit [Scalar F] in
theorem kinds_embeds (shape : Option (Nat × Nat)) (lossy : Bool) (d : Bytes) (pos : Nat) :
    Kinds textKinds (Embeddings.readEmbeds shape lossy d pos : Res (Embeddings T SimpleVocab (NdArray F) F)) := by
  unfold Embeddings.readEmbeds
  refine .bind ?_ fun _ => .bind (.mapM (fun l => ?_) _) fun rows => .bind ?_ fun s => .bind ?_ fun _ =>
    .bind (.of_noErr (noErr_simple _)) fun _ => .of_noErr (noErr_newWithMaybeNorms (fun _ => Res.noErr_ok _) _ _ _ _)
  · unfold Embeddings.allocTable
    split
    · exact .bind (.assert _) fun _ => .assert _
    · exact .ok _
  · rcases readTextLine_outcome (F := F) lossy l with ⟨r, h⟩ | h <;> rw [h]
    · exact .ok _
    · exact .err (by decide)
  · unfold Embeddings.tableShape
    split
    · split
      · exact .err (by decide)
      · split
        · exact .panic
        · split
          · exact .err (by decide)
          · exact .ok _
    · split
      · exact .panic
      · exact .ok _
  · unfold Embeddings.fromShapeVec
    split
    · exact .ok _
    · exact .err (by decide)

/-- The number of components, `total`, that makes a table of `rows` good lines be rejected because of its shape. -/
def BadShape (shape : Option (Nat × Nat)) (rows total : Nat) : Prop :=
  match shape with
  | none => ¬rows ∣ total
  | some (n, k) => rows = n ∧ total / n = k ∧ total ≠ n * k

omit [Scalar F] in
theorem readEmbeds_shape (shape : Option (Nat × Nat)) (lossy : Bool) (d : Bytes) (pos : Nat) :
    (Embeddings.readEmbeds shape lossy d pos : Res (Embeddings T SimpleVocab (NdArray F) F)) = .err .shape ↔
      Embeddings.allocTable shape = .ok () ∧ ∃ rows : List (Str × List F), LinesHave lossy (textLines (d.drop pos)) rows ∧
        rows ≠ [] ∧ BadShape shape rows.length (rows.map (·.2)).flatten.length := by
  unfold Embeddings.readEmbeds
  cases ha : Embeddings.allocTable shape with
  | err e =>
    exfalso
    cases shape with
    | none => cases ha
    | some s =>
      obtain ⟨n, k⟩ := s
      exact absurd ha (Res.noErr_bind (Res.noErr_assert _) (fun _ => Res.noErr_assert _) e)
  | panic => simp
  | ok u =>
    rw [Res.ok_bind]
    rcases mapM_outcome (readTextLine_outcome (F := F) lossy) (textLines (d.drop pos)) with ⟨⟨rows, hrows⟩, -⟩ | ⟨herr, -⟩
    · rw [hrows, Res.ok_bind]
      have hu : ∀ rows', LinesHave lossy (textLines (d.drop pos)) rows' → rows' = rows := by
        intro rows' h
        have := linesHave_iff.mpr h
        rw [hrows] at this
        exact (Res.ok.inj this).symm
      have hiff : (Embeddings.tableShape shape rows.length (rows.map (·.2)).flatten.length >>= fun s =>
          Embeddings.fromShapeVec s (rows.map (·.2)).flatten) = .err .shape ↔
          rows ≠ [] ∧ BadShape shape rows.length (rows.map (·.2)).flatten.length := by
        cases shape with
        | none =>
          simp only [Embeddings.tableShape]
          by_cases h0 : rows.length = 0
          · rw [if_pos h0]
            simp [List.length_eq_zero_iff.mp h0]
          · rw [if_neg h0, Res.ok_bind]
            unfold Embeddings.fromShapeVec
            dsimp only
            have hne : rows ≠ [] := fun h => h0 (by rw [h]; rfl)
            split
            · next h =>
              refine ⟨fun h => (by cases h), fun hh => absurd ⟨_, h⟩ hh.2⟩
            · next h =>
              refine ⟨fun _ => ⟨hne, fun hd => h ?_⟩, fun _ => rfl⟩
              exact (Nat.mul_div_cancel' hd).symm
        | some s =>
          obtain ⟨n, k⟩ := s
          simp only [Embeddings.tableShape]
          by_cases h1 : rows.length ≠ n
          · rw [if_pos h1]
            constructor
            · intro h; cases h
            · rintro ⟨-, h, -⟩
              exact absurd h h1
          · rw [if_neg h1]
            have h1' : rows.length = n := by simpa using h1
            by_cases h0 : n = 0
            · rw [if_pos h0]
              constructor
              · intro h; cases h
              · rintro ⟨h, -⟩
                exact absurd (List.length_eq_zero_iff.mp (by omega)) h
            · rw [if_neg h0]
              have hne : rows ≠ [] := fun h => h0 (by rw [← h1', h]; rfl)
              by_cases h2 : (rows.map (·.2)).flatten.length / n ≠ k
              · rw [if_pos h2]
                constructor
                · intro h; cases h
                · rintro ⟨-, -, h, -⟩
                  exact absurd h h2
              · rw [if_neg h2, Res.ok_bind]
                have h2' : (rows.map (·.2)).flatten.length / n = k := by simpa using h2
                unfold Embeddings.fromShapeVec
                dsimp only
                split
                · next h =>
                  exact ⟨fun h => (by cases h), fun hh => absurd h hh.2.2.2⟩
                · next h =>
                  exact ⟨fun _ => ⟨hne, h1', h2', h⟩, fun _ => rfl⟩
      have hrest := bind_err_iff (r := Embeddings.tableShape shape rows.length (rows.map (·.2)).flatten.length >>= fun s =>
        Embeddings.fromShapeVec s (rows.map (·.2)).flatten) (f := fun m => do
          let vocab ← SimpleVocab.new (rows.map (·.1))
          (Embeddings.newWithMaybeNorms none vocab (NdArray.mk m) none : Res (Embeddings T SimpleVocab (NdArray F) F)))
        (fun m => Res.noErr_bind (noErr_simple _) fun _ => noErr_newWithMaybeNorms (fun _ => Res.noErr_ok _) _ _ _ _) .shape
      have hassoc : (Embeddings.tableShape shape rows.length (rows.map (·.2)).flatten.length >>= fun s =>
          Embeddings.fromShapeVec s (rows.map (·.2)).flatten >>= fun m =>
            SimpleVocab.new (rows.map (·.1)) >>= fun vocab =>
            (Embeddings.newWithMaybeNorms none vocab (NdArray.mk m) none : Res (Embeddings T SimpleVocab (NdArray F) F))) =
          ((Embeddings.tableShape shape rows.length (rows.map (·.2)).flatten.length >>= fun s =>
            Embeddings.fromShapeVec s (rows.map (·.2)).flatten) >>= fun m =>
            SimpleVocab.new (rows.map (·.1)) >>= fun vocab =>
            (Embeddings.newWithMaybeNorms none vocab (NdArray.mk m) none : Res (Embeddings T SimpleVocab (NdArray F) F))) := by
        cases Embeddings.tableShape shape rows.length (rows.map (·.2)).flatten.length <;> rfl
      rw [hassoc, hrest, hiff]
      constructor
      · intro h
        exact ⟨rfl, rows, linesHave_iff.mp hrows, h⟩
      · rintro ⟨-, rows', h, h'⟩
        rw [hu rows' h] at h'
        exact h'
    · rw [herr]
      constructor
      · intro h; cases h
      · rintro ⟨-, rows, h, -⟩
        rw [linesHave_iff.mpr h] at herr
        cases herr

/-- C97, text without first line: the error is one of the shape exactly if all lines are good, there is one, and the number of
components is not a multiple of the number of lines; every other error is one of the format. -/
theorem c97_text (lossy : Bool) (d : Bytes) (pos : Nat) (lines : List Bytes) (hl : IsLines (d.drop pos) lines) :
    Kinds textKinds (Embeddings.readTextRaw lossy d pos : Res (Embeddings T SimpleVocab (NdArray F) F)) ∧
    ((Embeddings.readTextRaw lossy d pos : Res (Embeddings T SimpleVocab (NdArray F) F)) = .err .shape ↔
      ∃ rows : List (Str × List F), LinesHave lossy lines rows ∧ rows ≠ [] ∧
        ¬rows.length ∣ (rows.map (·.2)).flatten.length) ∧
    ∀ e, (Embeddings.readText lossy d pos : Res (Embeddings T SimpleVocab (NdArray F) F)) = .err e ↔
      (Embeddings.readTextRaw lossy d pos : Res (Embeddings T SimpleVocab (NdArray F) F)) = .err e := by
  obtain rfl := hl.eq
  refine ⟨kinds_embeds _ _ _ _, ?_, fun e => bind_err_iff noErr_normalizeRead e⟩
  unfold Embeddings.readTextRaw
  rw [readEmbeds_shape]
  exact ⟨fun h => h.2, fun h => ⟨rfl, h⟩⟩

/-- C97, text with a first line: the error is one of the shape exactly if the first line and all others are good, the table can
be allocated, there are as many lines as promised, and the number of components, divided by the number of lines and rounded
down, is that promised, but not exactly; every other error is one of the format. -/
theorem c97_text_dims (lossy : Bool) (d : Bytes) (pos : Nat) :
    Kinds textKinds (Embeddings.readTextDimsRaw lossy d pos : Res (Embeddings T SimpleVocab (NdArray F) F)) ∧
    ((Embeddings.readTextDimsRaw lossy d pos : Res (Embeddings T SimpleVocab (NdArray F) F)) = .err .shape ↔
      ∃ (n k p1 p2 : Nat) (lines : List Bytes) (rows : List (Str × List F)),
        readNumber 32 d pos = .ok (n, p1) ∧ readNumber 10 d p1 = .ok (k, p2) ∧
        24 * n ≤ isizeMax ∧ 4 * (n * k) ≤ isizeMax ∧ IsLines (d.drop p2) lines ∧ LinesHave lossy lines rows ∧
        rows.length = n ∧ n ≠ 0 ∧ (rows.map (·.2)).flatten.length / n = k ∧ (rows.map (·.2)).flatten.length ≠ n * k) ∧
    ∀ e, (Embeddings.readTextDims lossy d pos : Res (Embeddings T SimpleVocab (NdArray F) F)) = .err e ↔
      (Embeddings.readTextDimsRaw lossy d pos : Res (Embeddings T SimpleVocab (NdArray F) F)) = .err e := by
  refine ⟨?_, ?_, fun e => bind_err_iff noErr_normalizeRead e⟩
  · unfold Embeddings.readTextDimsRaw
    exact .bind ((RdKinds.readNumber (by decide) _).kinds _ _) fun _ =>
      .bind ((RdKinds.readNumber (by decide) _).kinds _ _) fun _ => kinds_embeds _ _ _ _
  · unfold Embeddings.readTextDimsRaw
    constructor
    · intro h
      cases h1 : readNumber 32 d pos with
      | panic => rw [h1] at h; cases h
      | err e =>
        have := (RdKinds.readNumber (S := [.format]) (by decide) _).kinds _ _ e h1
        rw [h1] at h
        cases h
        simp at this
      | ok r =>
        obtain ⟨n, p1⟩ := r
        rw [h1, Res.ok_bind] at h
        dsimp only at h
        cases h2 : readNumber 10 d p1 with
        | panic => rw [h2] at h; cases h
        | err e =>
          have := (RdKinds.readNumber (S := [.format]) (by decide) _).kinds _ _ e h2
          rw [h2] at h
          cases h
          simp at this
        | ok r =>
          obtain ⟨k, p2⟩ := r
          rw [h2, Res.ok_bind] at h
          obtain ⟨h3, rows, h4, h5, h6, h7, h8⟩ := (readEmbeds_shape _ _ _ _).mp h
          have h3' : 24 * n ≤ isizeMax ∧ 4 * (n * k) ≤ isizeMax := by
            unfold Embeddings.allocTable at h3
            obtain ⟨_, h9, h10⟩ := Res.bind_eq_ok.mp h3
            simp [Res.assert] at h9 h10
            exact ⟨h9, h10⟩
          refine ⟨n, k, p1, p2, _, rows, rfl, h2, h3'.1, h3'.2, textLines_spec _, h4, h6, ?_, h7, h8⟩
          rintro rfl
          exact h5 (List.length_eq_zero_iff.mp h6)
    · rintro ⟨n, k, p1, p2, lines, rows, h1, h2, h3, h3', hl, h4, h5, h6, h7, h8⟩
      rw [h1, Res.ok_bind]
      dsimp only
      rw [h2, Res.ok_bind]
      dsimp only
      obtain rfl := hl.eq
      rw [readEmbeds_shape]
      refine ⟨?_, rows, h4, ?_, h5, h7, h8⟩
      · unfold Embeddings.allocTable
        simp [Res.assert, h3, h3']
      · rintro rfl
        exact h6 h5.symm

end

/-! ## I/O errors mean that data is missing -/

/-- Whatever the data is, it can be continued so that the outcome is not an I/O error, and no further data changes the outcome
any more. -/
structure Settles {α : Type} (p : Rd α) : Prop where
  settles : ∀ (d : Bytes) (pos : Nat), ∃ more : Bytes, p (d ++ more) pos ≠ .err .io ∧
    ∀ further, p (d ++ more ++ further) pos = p (d ++ more) pos

namespace Settles
variable {α β : Type}

/-- A reader that does not look at the data. -/
theorem const {p : Rd α} (h : ∀ d pos, p d pos ≠ .err .io) (hc : ∀ d d' pos, p d pos = p d' pos) : Settles p :=
  ⟨fun _ _ => ⟨[], h _ _, fun _ => hc _ _ _⟩⟩

theorem pure (a : α) : Settles (pure a : Rd α) := const (fun _ _ h => by cases h) fun _ _ _ => rfl
theorem fail {e : Err} (h : e ≠ .io) : Settles (fail e : Rd α) :=
  const (fun _ _ h' => h (Res.err.inj h')) fun _ _ _ => rfl
theorem lift {r : Res α} (h : r ≠ .err .io) : Settles (lift r) := by
  refine const (fun d pos h' => ?_) fun d d' pos => ?_
  · change Rd.lift r d pos = _ at h'
    unfold Rd.lift at h'
    cases r with
    | ok a => cases h'
    | err e => exact h (by simpa using h')
    | panic => cases h'
  · show Rd.lift r d pos = Rd.lift r d' pos
    unfold Rd.lift
    cases r <;> rfl
theorem assert (c : Prop) [Decidable c] : Settles (Rd.lift (Res.assert c)) := lift (Res.noErr_assert c _)
theorem option {e : Err} (he : e ≠ .io) (o : Option α) : Settles (Rd.lift (Res.ofOption e o)) := by
  refine lift fun h => ?_
  cases o with
  | none => exact he (Res.err.inj h)
  | some a => cases h
theorem noErr {r : Res α} (h : Res.NoErr r) : Settles (Rd.lift r) := lift (h _)

theorem bind {p : Rd α} {f : α → Rd β} (h : Settles p) (hf : ∀ a, Settles (f a)) : Settles (p >>= f) := by
  refine ⟨fun d pos => ?_⟩
  obtain ⟨more, h1, h2⟩ := h.settles d pos
  cases hr : p (d ++ more) pos with
  | ok r =>
    obtain ⟨more', h3, h4⟩ := (hf r.1).settles (d ++ more) r.2
    have hp : ∀ x, p (d ++ more ++ x) pos = .ok r := fun x => by rw [h2, hr]
    refine ⟨more ++ more', ?_, fun x => ?_⟩
    · rw [bind_apply, ← List.append_assoc, hp]
      exact h3
    · rw [bind_apply, bind_apply, ← List.append_assoc d, hp, List.append_assoc (d ++ more), hp,
        ← List.append_assoc (d ++ more)]
      exact h4 x
  | err e =>
    refine ⟨more, ?_, fun x => ?_⟩
    · rw [bind_apply, hr]
      intro h
      apply h1
      rw [hr]
      simpa using h
    · rw [bind_apply, bind_apply, h2, hr]
      rfl
  | panic =>
    refine ⟨more, ?_, fun x => ?_⟩
    · rw [bind_apply, hr]
      intro h; cases h
    · rw [bind_apply, bind_apply, h2, hr]
      rfl

theorem ite {c : Prop} [Decidable c] {p q : Rd α} (hp : Settles p) (hq : Settles q) : Settles (if c then p else q) := by
  split
  · exact hp
  · exact hq
theorem position : Settles position := const (fun _ _ h => by cases h) fun _ _ _ => rfl
theorem skip (n : Nat) : Settles (skip n) := const (fun _ _ h => by cases h) fun _ _ _ => rfl
theorem alloc (s n : Nat) : Settles (alloc s n) := assert _
theorem allocArray (s : Nat) (l : List Nat) : Settles (allocArray s l) := assert _
theorem replicateM {p : Rd α} (h : Settles p) (n : Nat) : Settles (replicateM n p) := by
  induction n with
  | zero => exact pure _
  | succ n ih => exact bind h fun _ => bind ih fun _ => pure _

theorem readExact (n : Nat) : Settles (readExact n) := by
  refine ⟨fun d pos => ⟨List.replicate (pos + n) 0, ?_, fun x => ?_⟩⟩
  · unfold Rd.readExact
    split
    · intro h; cases h
    · rw [if_pos (by simp only [List.length_append, List.length_replicate]; omega)]
      intro h; cases h
  · unfold Rd.readExact
    split
    · rfl
    · rw [if_pos (by simp only [List.length_append, List.length_replicate]; omega), if_pos (by simp only [List.length_append, List.length_replicate]; omega), List.drop_append_of_le_length (by simp only [List.length_append, List.length_replicate]; omega),
        List.take_append_of_le_length (by simp only [List.length_append, List.length_replicate, List.length_drop]; omega)]

theorem readU32 : Settles readU32 := bind (readExact 4) fun _ => pure _
theorem readU64 : Settles readU64 := bind (readExact 8) fun _ => pure _
theorem readF32s (n : Nat) : Settles (readF32s n) := bind (readExact _) fun _ => pure _

theorem takeThrough_more {delim : UInt8} {x : Bytes} (h : delim ∈ x) (y : Bytes) :
    takeThrough delim (x ++ y) = takeThrough delim x := by
  induction x with
  | nil => simp at h
  | cons b x ih =>
    rw [List.cons_append]
    unfold takeThrough
    split
    · rfl
    · next hb =>
      rcases List.mem_cons.mp h with h | h
      · exact absurd h.symm hb
      · rw [ih h]

theorem readUntil (delim : UInt8) : Settles (readUntil delim) := by
  refine ⟨fun d pos => ⟨List.replicate pos 0 ++ [delim], fun h => (by cases h), fun x => ?_⟩⟩
  unfold FF.readUntil
  have hd : (d ++ (List.replicate pos 0 ++ [delim])).drop pos = (d ++ List.replicate pos 0).drop pos ++ [delim] := by
    rw [← List.append_assoc, List.drop_append_of_le_length (by simp)]
  rw [List.drop_append_of_le_length (by simp; omega), takeThrough_more]
  rw [hd]
  simp

theorem readToken (delim : UInt8) (lossy : Bool) : Settles (readToken delim lossy) := by
  refine bind (readUntil _) fun _ => ?_
  unfold decodeToken
  split
  · exact lift fun h => by cases h
  · exact option (by decide) _

theorem readNumber (delim : UInt8) : Settles (readNumber delim) :=
  bind (readToken _ _) fun _ => option (by decide) _

end Settles

/-- Decomposes a goal `Settles` along the structure of a reader. -/
macro "settles_tac" : tactic => `(tactic|
  repeat' (first
    | with_reducible exact Settles.pure _ | with_reducible exact Settles.assert _
    | with_reducible exact Settles.option (by decide) _ | with_reducible exact Settles.fail (by decide)
    | with_reducible exact Settles.alloc _ _ | with_reducible exact Settles.allocArray _ _
    | with_reducible exact Settles.readExact _ | with_reducible exact Settles.readU32
    | with_reducible exact Settles.readU64 | with_reducible exact Settles.readF32s _
    | with_reducible exact Settles.position | with_reducible exact Settles.skip _
    | with_reducible exact Settles.readToken _ _ | with_reducible exact Settles.readNumber _
    | with_reducible apply Settles.replicateM | assumption
    | with_reducible apply Settles.bind | with_reducible apply Settles.ite | split | (intro _)))

/-! ## word2vec, fastText and floret files -/

section
variable {T F : Type} [Scalar F] [FloatBits F]

omit [Scalar F] in
theorem kinds_word2vec (lossy : Bool) :
    RdKinds [.io, .format] (Embeddings.readWord2vecRaw lossy : Rd (Embeddings T SimpleVocab (NdArray F) F)) := by
  have := io_mem
  have := format_mem
  unfold Embeddings.readWord2vecRaw Embeddings.readWord2vecEntry
  kinds_tac
  · exact .lift (.of_noErr (noErr_simple _))
  · exact .lift (.of_noErr (noErr_newWithMaybeNorms (fun _ => Res.noErr_ok _) _ _ _ _))

omit [Scalar F] in
theorem settles_word2vec (lossy : Bool) :
    Settles (Embeddings.readWord2vecRaw lossy : Rd (Embeddings T SimpleVocab (NdArray F) F)) := by
  unfold Embeddings.readWord2vecRaw Embeddings.readWord2vecEntry
  settles_tac
  · exact .noErr (noErr_simple _)
  · exact .noErr (noErr_newWithMaybeNorms (fun _ => Res.noErr_ok _) _ _ _ _)

/-- C97, word2vec: the errors are I/O errors and errors in the format, and an I/O error means that data is missing. -/
theorem c97_word2vec (lossy : Bool) (d : Bytes) (pos : Nat) :
    (Kinds [.io, .format] ((Embeddings.readWord2vecRaw lossy : Rd (Embeddings T SimpleVocab (NdArray F) F)) d pos) ∧
      ∃ more, (Embeddings.readWord2vecRaw lossy : Rd (Embeddings T SimpleVocab (NdArray F) F)) (d ++ more) pos ≠ .err .io ∧
        ∀ further, (Embeddings.readWord2vecRaw lossy : Rd (Embeddings T SimpleVocab (NdArray F) F)) (d ++ more ++ further) pos =
          Embeddings.readWord2vecRaw lossy (d ++ more) pos) ∧
    (Kinds [.io, .format] ((Embeddings.readWord2vec lossy : Rd (Embeddings T SimpleVocab (NdArray F) F)) d pos) ∧
      ∃ more, (Embeddings.readWord2vec lossy : Rd (Embeddings T SimpleVocab (NdArray F) F)) (d ++ more) pos ≠ .err .io ∧
        ∀ further, (Embeddings.readWord2vec lossy : Rd (Embeddings T SimpleVocab (NdArray F) F)) (d ++ more ++ further) pos =
          Embeddings.readWord2vec lossy (d ++ more) pos) := by
  refine ⟨⟨(kinds_word2vec lossy).kinds d pos, (settles_word2vec lossy).settles d pos⟩, ?_, ?_⟩
  · exact (RdKinds.bind (kinds_word2vec lossy) fun e => .lift (.of_noErr (noErr_normalizeRead e))).kinds d pos
  · exact (Settles.bind (settles_word2vec lossy) fun e => .noErr (noErr_normalizeRead e)).settles d pos

variable [ScalarNat F] [ConfigToml T]

omit [FloatBits F] in
theorem kinds_finishFastText (c : FtConfig) (v : FastTextSubwordVocab) (s : NdArray F) :
    Kinds [.format, .shape] (Embeddings.finishFastText c v s : Res (Embeddings T FastTextSubwordVocab (NdArray F) F)) := by
  unfold Embeddings.finishFastText
  refine .bind (.of_noErr (addSubword_noErr _ _)) fun m => .bind (.of_noErr ?_) fun r => ?_
  · unfold normalizeFirst
    exact Res.noErr_bind (Res.noErr_assert _) fun _ => Res.noErr_ok _
  · dsimp only
    split
    · exact .err (by decide)
    · refine .bind (.option (by decide) _) fun _ => .of_noErr ?_
      unfold Embeddings.new
      exact Res.noErr_bind (Res.noErr_assert _) fun _ => noErr_newWithMaybeNorms (fun _ => Res.noErr_ok _) _ _ _ _

/-- C97, fastText: the errors are I/O errors, errors in the format and errors of the shape, and an I/O error means that data is
missing. -/
theorem c97_fasttext (lossy : Bool) (d : Bytes) (pos : Nat) :
    Kinds [.io, .format, .shape]
      ((Embeddings.readFastText lossy : Rd (Embeddings T FastTextSubwordVocab (NdArray F) F)) d pos) ∧
    ∃ more, (Embeddings.readFastText lossy : Rd (Embeddings T FastTextSubwordVocab (NdArray F) F)) (d ++ more) pos ≠ .err .io ∧
      ∀ further, (Embeddings.readFastText lossy : Rd (Embeddings T FastTextSubwordVocab (NdArray F) F))
        (d ++ more ++ further) pos = Embeddings.readFastText lossy (d ++ more) pos := by
  have hio : Err.io ∈ [Err.io, .format, .shape] := by decide
  have hfo : Err.format ∈ [Err.io, .format, .shape] := by decide
  have hb : ∀ ws a b (ix : FastTextIndexer), Res.NoErr (SubwordVocab.new ws a b ix) := fun ws a b ix =>
    noErr_newWithBoundaries (fun _ => Res.noErr_ok _) _ _ _ _ _ _
  constructor
  · suffices h : RdKinds [.io, .format, .shape] (Embeddings.readFastText lossy : Rd (Embeddings T FastTextSubwordVocab (NdArray F) F)) from
      h.kinds d pos
    unfold Embeddings.readFastText Embeddings.readFtMagic readFtConfig readLoss readModel readFtVocab readFtVocabHead readFtWord
      Embeddings.readFtQuantized readFtMatrix
    kinds_tac
    · exact .lift (.of_noErr (noErr_fastTextNew _))
    · exact .lift (.of_noErr (hb _ _ _ _))
    · refine .lift fun e h => ?_
      have := kinds_finishFastText _ _ _ e h
      simp at this
      rcases this with rfl | rfl <;> decide
  · suffices h : Settles (Embeddings.readFastText lossy : Rd (Embeddings T FastTextSubwordVocab (NdArray F) F)) from
      h.settles d pos
    unfold Embeddings.readFastText Embeddings.readFtMagic readFtConfig readLoss readModel readFtVocab readFtVocabHead readFtWord
      Embeddings.readFtQuantized readFtMatrix
    settles_tac
    · exact .noErr (noErr_fastTextNew _)
    · exact .noErr (hb _ _ _ _)
    · refine .lift fun h => ?_
      have := kinds_finishFastText _ _ _ _ h
      simp at this

end

section
variable {T F : Type} [Scalar F] [FloatText F]

omit [Scalar F] in
/-- **C60** (errors in the first line). If the first line cannot be read, or one of its numbers is not acceptable, the error is
one of the format. -/
theorem c60_first_line (d : Bytes) (pos : Nat) :
    (∀ x, readFloretHead d pos = .err x →
      (Embeddings.readFloret d pos : Res (Embeddings T FloretSubwordVocab (NdArray F) F)) = .err .format) ∧
    (∀ h p, readFloretHead d pos = .ok (h, p) →
      (h.nBuckets = 0 ∨ h.embedLen = 0 ∨ h.maxN < h.minN ∨ h.nHashes = 0 ∨ 4 < h.nHashes) →
      (Embeddings.readFloret d pos : Res (Embeddings T FloretSubwordVocab (NdArray F) F)) = .err .format) ∧
    readFloretHead d pos ≠ .panic := by
  have hk : RdKinds [.format] readFloretHead := by
    have : Err.format ∈ [Err.format] := by decide
    unfold readFloretHead
    kinds_tac
  refine ⟨fun x hx => ?_, fun h p hh hbad => ?_, ?_⟩
  · have := hk.kinds d pos x hx
    simp at this
    subst this
    unfold Embeddings.readFloret
    rw [hx]
    rfl
  · unfold Embeddings.readFloret
    rw [hh, Res.ok_bind]
    dsimp only
    rw [show checkFloretHead h = .err .format from ?_]
    · rfl
    · unfold checkFloretHead
      repeat' split
      all_goals first | rfl | omega
  · have hp : NoPanic readFloretHead := by
      unfold readFloretHead
      exact .bind (readNumber_noPanic _) fun _ => .bind (readNumber_noPanic _) fun _ => .bind (readNumber_noPanic _) fun _ =>
        .bind (readNumber_noPanic _) fun _ => .bind (readNumber_noPanic _) fun _ => .bind (readNumber_noPanic _) fun _ =>
        .bind (readToken_noPanic _ _) fun _ => .bind (readToken_noPanic _ _) fun _ => .pure _
    exact hp d pos

theorem Res.mapM_first_of_err {α β : Type} {f : α → Res β} {x : Err} {l : List α} (h : l.mapM f = .err x) :
    ∃ init a rest, l = init ++ a :: rest ∧ (∀ b ∈ init, ∃ c, f b = .ok c) ∧ f a = .err x := by
  induction l with
  | nil => cases h
  | cons b l ih =>
    rw [List.mapM_cons] at h
    cases hb : f b with
    | err e =>
      rw [hb] at h
      cases h
      exact ⟨[], b, l, rfl, by simp, hb⟩
    | panic => rw [hb] at h; cases h
    | ok c =>
      rw [hb, Res.ok_bind] at h
      cases hl : l.mapM f with
      | ok cs => rw [hl] at h; cases h
      | panic => rw [hl] at h; cases h
      | err e =>
        rw [hl] at h
        cases h
        obtain ⟨init, a, rest, h1, h2, h3⟩ := ih hl
        refine ⟨b :: init, a, rest, by rw [h1]; rfl, fun b' hb' => ?_, h3⟩
        rcases List.mem_cons.mp hb' with rfl | hb'
        · exact ⟨c, hb⟩
        · exact h2 b' hb'

omit [Scalar F] in
/-- C97, floret: the errors are I/O errors, errors in the format and errors of the shape. It is an I/O error exactly if the
first line and the lines before a line that is not valid text are good. -/
theorem c97_floret (d : Bytes) (pos : Nat) :
    Kinds [.io, .format, .shape] (Embeddings.readFloret d pos : Res (Embeddings T FloretSubwordVocab (NdArray F) F)) ∧
    ((Embeddings.readFloret d pos : Res (Embeddings T FloretSubwordVocab (NdArray F) F)) = .err .io ↔
      ∃ h p good bad rest, readFloretHead d pos = .ok (h, p) ∧ h.nBuckets ≠ 0 ∧ h.embedLen ≠ 0 ∧ h.minN ≤ h.maxN ∧
        1 ≤ h.nHashes ∧ h.nHashes ≤ 4 ∧ 4 * (h.nBuckets * h.embedLen) ≤ isizeMax ∧
        IsLines (d.drop p) (good ++ bad :: rest) ∧
        (∀ l ∈ good, ∃ row : List F, FloretLineHas l row ∧ row.length = h.embedLen) ∧ ∀ s, utf8 s ≠ bad) := by
  have hk : RdKinds [.format] readFloretHead := by
    have : Err.format ∈ [Err.format] := by decide
    unfold readFloretHead
    kinds_tac
  have hline : ∀ k l, Kinds [.io, .format] (Embeddings.readFloretLine (F := F) k l) := by
    intro k l
    unfold Embeddings.readFloretLine
    refine .bind (.option (by decide) _) fun s => .bind (.mapM (fun _ => .option (by decide) _) _) fun xs => ?_
    split
    · exact .err (by decide)
    · exact .ok _
  have hio : ∀ k l, Embeddings.readFloretLine (F := F) k l = .err .io → ∀ s, utf8 s ≠ l := by
    rintro k l h s rfl
    unfold Embeddings.readFloretLine at h
    rw [utf8Decode_utf8, Res.ofOption_some, Res.ok_bind] at h
    rcases mapM_parse_outcome (F := F) ((parts s).drop 1) with ⟨xs, hx⟩ | hx
    · rw [hx, Res.ok_bind] at h
      split at h <;> cases h
    · rw [hx] at h; cases h
  have hshape : ∀ s (l : List F), Kinds [.shape] (Embeddings.fromShapeVec s l) := by
    intro s l
    unfold Embeddings.fromShapeVec
    split
    · exact .ok _
    · exact .err (by decide)
  have hrest : ∀ (h : FloretHead) (m : Mat F), Res.NoErr (do
      let indexer ← FloretIndexer.new h.nBuckets h.nHashes (UInt32.ofNat h.seed)
      let vocab ← SubwordVocab.newWithBoundaries [] h.minN h.maxN indexer h.bow h.eow
      (Embeddings.newWithMaybeNorms none vocab (NdArray.mk m) none :
        Res (Embeddings T FloretSubwordVocab (NdArray F) F))) := fun h m =>
    Res.noErr_bind (noErr_floretNew _ _ _) fun _ => Res.noErr_bind
      (noErr_newWithBoundaries (fun _ => Res.noErr_ok _) _ _ _ _ _ _) fun _ =>
      noErr_newWithMaybeNorms (fun _ => Res.noErr_ok _) _ _ _ _
  refine ⟨?_, ?_, ?_⟩
  · unfold Embeddings.readFloret
    refine .bind (fun e h => ?_) fun r => .bind ?_ fun _ => .bind (.assert _) fun _ =>
      .bind (.mapM (fun l e h => ?_) _) fun _ => .bind (fun e h => ?_) fun _ => .of_noErr (hrest _ _)
    · have := hk.kinds d pos e h
      simp at this
      subst this
      decide
    · unfold checkFloretHead
      repeat' split
      all_goals first | exact .ok _ | exact .err (by decide)
    · have := hline _ _ e h
      simp at this
      rcases this with rfl | rfl <;> decide
    · have := hshape _ _ e h
      simp at this
      subst this
      decide
  · intro hr
    unfold Embeddings.readFloret at hr
    cases hh : readFloretHead d pos with
    | panic => rw [hh] at hr; cases hr
    | err e =>
      have := hk.kinds d pos e hh
      rw [hh] at hr
      cases hr
      simp at this
    | ok r =>
      obtain ⟨h, p⟩ := r
      rw [hh, Res.ok_bind] at hr
      dsimp only at hr
      cases hc : checkFloretHead h with
      | panic => rw [hc] at hr; cases hr
      | err e =>
        exfalso
        rw [hc] at hr
        cases hr
        unfold checkFloretHead at hc
        repeat' split at hc
        all_goals cases hc
      | ok u =>
        obtain ⟨c1, c2, c3, c4, c5⟩ := checkFloretHead_iff.mp hc
        rw [hc, Res.ok_bind] at hr
        by_cases c6 : 4 * (h.nBuckets * h.embedLen) ≤ isizeMax
        · rw [show Res.assert (4 * (h.nBuckets * h.embedLen) ≤ isizeMax) = .ok () by simp [Res.assert, c6], Res.ok_bind,
            readFloretLines_text] at hr
          cases hm : (textLines (d.drop p)).mapM (Embeddings.readFloretLine (F := F) h.embedLen) with
          | panic => rw [hm] at hr; cases hr
          | ok rows =>
            exfalso
            rw [hm, Res.ok_bind] at hr
            cases hs : Embeddings.fromShapeVec (h.nBuckets, h.embedLen) rows.flatten with
            | ok m =>
              rw [hs, Res.ok_bind] at hr
              exact hrest h m _ hr
            | err e =>
              have := hshape _ _ e hs
              rw [hs] at hr
              cases hr
              simp at this
            | panic => rw [hs] at hr; cases hr
          | err e =>
            rw [hm] at hr
            cases hr
            obtain ⟨good, bad, rest, h1, h2, h3⟩ := Res.mapM_first_of_err hm
            refine ⟨h, p, good, bad, rest, rfl, c1, c2, c3, c4, c5, c6, h1 ▸ textLines_spec _, fun l hl => ?_, hio _ _ h3⟩
            obtain ⟨row, hrow⟩ := h2 l hl
            exact ⟨row, (readFloretLine_iff (by omega)).mp hrow⟩
        · rw [show Res.assert (4 * (h.nBuckets * h.embedLen) ≤ isizeMax) = .panic by simp [Res.assert, c6]] at hr
          cases hr
  · rintro ⟨h, p, good, bad, rest, hh, c1, c2, c3, c4, c5, c6, hl, hg, hb⟩
    exact (c60_errors d pos h p hh c1 c2 c3 c4 c5 c6 good hg).1 bad rest .io hl (.text _ hb)

end

/-! ## Examples -/

attribute [local instance] exampleScalar exampleFloatText exampleScalarNat exampleConfigToml

/-- Outcome of reading a text file without first line. -/
def exampleTextOutcome (s : String) : Res (List (List F32)) :=
  (Embeddings.readTextRaw false (ascii s) 0 : Res (Embeddings Str SimpleVocab (NdArray F32) F32)).map
    fun e => e.storage.inner.rows

/-- Ragged lines are an error of the shape unless the components can be spread evenly (`c97_text`). -/
example : exampleTextOutcome "a 1 2\nb 3\n" = .err .shape ∧ exampleTextOutcome "a 1 2 3\nb 4\n" = .ok [[1, 2], [3, 4]] ∧
    exampleTextOutcome "a 1 x\nb 3\n" = .err .format := by
  refine ⟨?_, ?_, ?_⟩ <;> decide +kernel

/-- Outcome of reading a text file with a first line. -/
def exampleDimsOutcome (s : String) : Res (List (List F32)) :=
  (Embeddings.readTextDimsRaw false (ascii s) 0 : Res (Embeddings Str SimpleVocab (NdArray F32) F32)).map
    fun e => e.storage.inner.rows

/-- One component too many is an error of the shape, two are one of the format (`c97_text_dims`). -/
example : exampleDimsOutcome "2 1\na 1 2\nb 3\n" = .err .shape ∧ exampleDimsOutcome "2 1\na 1 2\nb 3 4\n" = .err .format ∧
    exampleDimsOutcome "2 1\na 1\nb\n" = .err .format := by
  refine ⟨?_, ?_, ?_⟩ <;> decide +kernel

/-- Outcome of reading a word2vec file. -/
def exampleWord2vecOutcome (d : Bytes) : Res (List (List F32)) :=
  ((Embeddings.readWord2vecRaw false : Rd (Embeddings Str SimpleVocab (NdArray F32) F32)) d 0).map
    fun e => e.1.storage.inner.rows

/-- A truncated word2vec file and how it can be continued (`c97_word2vec`). -/
example : exampleWord2vecOutcome (ascii "1 1\na " ++ [1, 2]) = .err .io ∧
    exampleWord2vecOutcome (ascii "1 1\na " ++ [1, 2] ++ [3, 0]) = .ok [[0x00030201]] ∧
    exampleWord2vecOutcome (ascii "1 x\na " ++ [1, 2]) = .err .format := by
  refine ⟨?_, ?_, ?_⟩ <;> decide +kernel

/-- Outcome of reading a fastText file. -/
def exampleFastTextOutcome (d : Bytes) : Res (List (List F32)) :=
  ((Embeddings.readFastText false : Rd (Embeddings FtConfig FastTextSubwordVocab (NdArray F32) F32)) d 0).map
    fun e => e.1.storage.inner.rows

/-- No data at all, and another magic number (`c97_fasttext`). -/
example : exampleFastTextOutcome [] = .err .io ∧ exampleFastTextOutcome [1, 2, 3, 4] = .err .format := by
  refine ⟨?_, ?_⟩ <;> decide +kernel

/-- First lines that are cut off, not numbers, or not acceptable (`c60_first_line`). -/
example : exampleFloretTable "2 2 3" = .err .format ∧ exampleFloretTable "2 x 3 6 3 7 < >\n0 1 2\n1 3 4\n" = .err .format ∧
    exampleFloretTable "0 2 3 6 3 7 < >\n" = .err .format ∧ exampleFloretTable "2 0 3 6 3 7 < >\n0\n1\n" = .err .format ∧
    exampleFloretTable "2 2 3 6 0 7 < >\n0 1 2\n1 3 4\n" = .err .format ∧
    exampleFloretTable "2 2 3 6 5 7 < >\n0 1 2\n1 3 4\n" = .err .format := by
  refine ⟨?_, ?_, ?_, ?_, ?_, ?_⟩ <;> decide +kernel

end FF
