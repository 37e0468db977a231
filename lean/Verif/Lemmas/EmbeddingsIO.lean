import Verif.Model.Embeddings
import Verif.Props.Mmap

/-!
# Lemmas about reading and writing embeddings
-/

namespace FF

open Rd Embeddings

/-- What the proofs about whole files need to know about a vocabulary type: its chunk identifier is neither
that of the header nor that of metadata, and its reader does not depend on later data. -/
class VocabChunk (V : Type) [WriteChunk V] [ReadChunk V] : Prop where
  id_ne : ∀ v : V, chunkId v ≠ .header ∧ chunkId v ≠ .metadata
  mono : Mono (readChunk : Rd V)

/-- The same for storage types. -/
class StorageChunk (S : Type) [WriteChunk S] [ReadChunk S] : Prop where
  id_ne : ∀ s : S, chunkId s ≠ .header
  mono : Mono (readChunk : Rd S)

theorem peekChunkId_mono : Mono peekChunkId := by
  constructor
  intro d e pos
  unfold peekChunkId
  rcases readChunkId_mono.mono d e pos with h | h
  · left; rw [h]; rfl
  · right; rw [h]

instance : VocabChunk SimpleVocab := ⟨fun _ => by constructor <;> simp [chunkId], SimpleVocab.read_mono⟩
instance : VocabChunk BucketSubwordVocab := ⟨fun _ => by constructor <;> simp [chunkId], readBucketed_mono _⟩
instance : VocabChunk FastTextSubwordVocab := ⟨fun _ => by constructor <;> simp [chunkId], readBucketed_mono _⟩
instance : VocabChunk ExplicitSubwordVocab := ⟨fun _ => by constructor <;> simp [chunkId], readExplicit_mono⟩
instance : VocabChunk FloretSubwordVocab := ⟨fun _ => by constructor <;> simp [chunkId], readFloret_mono⟩
instance : VocabChunk VocabWrap where
  id_ne v := by cases v <;> constructor <;> simp [chunkId]
  mono := by
    show Mono readVocabWrap
    unfold readVocabWrap
    refine peekChunkId_mono.bind fun i => ?_
    cases i
    case simpleVocab => exact (VocabChunk.mono (V := SimpleVocab)).bind fun _ => Mono.pure _
    case bucketSubwordVocab => exact (VocabChunk.mono (V := BucketSubwordVocab)).bind fun _ => Mono.pure _
    case fastTextSubwordVocab => exact (VocabChunk.mono (V := FastTextSubwordVocab)).bind fun _ => Mono.pure _
    case explicitSubwordVocab => exact (VocabChunk.mono (V := ExplicitSubwordVocab)).bind fun _ => Mono.pure _
    case floretSubwordVocab => exact (VocabChunk.mono (V := FloretSubwordVocab)).bind fun _ => Mono.pure _
    all_goals exact Mono.fail _

instance : StorageChunk (NdArray F32) := ⟨fun _ => by simp [chunkId], readNdArray_mono⟩
instance : StorageChunk (QuantizedArray F32) := ⟨fun _ => by simp [chunkId], readQuantizedArray_mono⟩
instance : StorageChunk StorageWrap where
  id_ne v := by cases v <;> simp [chunkId]
  mono := by
    show Mono readStorageWrap
    unfold readStorageWrap
    refine peekChunkId_mono.bind fun i => ?_
    cases i
    case ndArray => exact (StorageChunk.mono (S := NdArray F32)).bind fun _ => Mono.pure _
    case quantizedArray => exact (StorageChunk.mono (S := QuantizedArray F32)).bind fun _ => Mono.pure _
    all_goals exact Mono.fail _
instance : StorageChunk StorageViewWrap where
  id_ne v := by cases v <;> simp [chunkId]
  mono := by
    show Mono readStorageViewWrap
    unfold readStorageViewWrap
    refine peekChunkId_mono.bind fun i => ?_
    cases i
    case ndArray => exact (StorageChunk.mono (S := NdArray F32)).bind fun _ => Mono.pure _
    all_goals exact Mono.fail _

theorem RoundTrips.good {X : Type} [WriteChunk X] [ReadChunk X] {x : X} (h : RoundTrips x) (off : Nat) :
    (writeChunk x off).Good := by
  have := (h (List.replicate off 0) []).1
  rwa [List.length_replicate] at this

theorem RoundTrips.readsAt {X : Type} [WriteChunk X] [ReadChunk X] {x : X} (h : RoundTrips x) (off : Nat) :
    ReadsAt readChunk off (writeChunk x off).bytes x := by
  intro pre post hp
  have := (h pre post).2
  rwa [hp, List.append_assoc] at this

theorem andThen_good {a b : Nat → W} {off : Nat} (ha : (a off).Good) (hb : (b (off + (a off).size)).Good) :
    (andThen a b off).Good := W.good_seq ha hb

theorem andThen_bytes {a b : Nat → W} {off : Nat} (ha : (a off).Good) :
    (andThen a b off).bytes = (a off).bytes ++ (b (off + (a off).size)).bytes := W.bytes_seq ha

section
variable {T V S : Type} [Toml T] [WriteChunk V] [WriteChunk S]

theorem chunkIds_ne (e : Embeddings T V S F32) (hv : chunkId e.vocab ≠ .header)
    (hs : chunkId e.storage ≠ .header) : (∀ i ∈ e.chunkIds, i ≠ .header) ∧ e.chunkIds.length < 2 ^ 32 := by
  unfold Embeddings.chunkIds
  constructor
  · intro i hi
    have hm : ∀ m : Metadata T, chunkId m ≠ .header := fun _ => by simp [chunkId]
    have hn : ∀ m : NdNorms F32, chunkId m ≠ .header := fun _ => by simp [chunkId]
    rcases e with ⟨_ | m, s, v, _ | n⟩ <;> simp at hi hv hs <;> grind
  · rcases e with ⟨_ | m, s, v, _ | n⟩ <;> simp

/-- The parts of a written file: header, metadata, vocabulary, storage, norms. -/
theorem write_bytes (e : Embeddings T V S F32) (off : Nat) (hv : ∀ off, (writeChunk e.vocab off).Good)
    (hs : ∀ off, (writeChunk e.storage off).Good) :
    (e.write off).Good ∧ ∃ o1 o2 o3 o4, o1 = off + (Header.mk e.chunkIds).write.size ∧
      o2 = o1 + (writeOpt e.metadata o1).size ∧ o3 = o2 + (writeChunk e.vocab o2).size ∧
      o4 = o3 + (writeChunk e.storage o3).size ∧
      (e.write off).bytes = (Header.mk e.chunkIds).write.bytes ++ ((writeOpt e.metadata o1).bytes ++
        ((writeChunk e.vocab o2).bytes ++ ((writeChunk e.storage o3).bytes ++ (writeOpt e.norms o4).bytes))) := by
  have hm : ∀ off, (writeOpt e.metadata off).Good := by
    intro off
    cases e.metadata with
    | none => exact W.good_nil
    | some m => exact writeMetadata_good m
  have hn : ∀ off, (writeOpt e.norms off).Good := by
    intro off
    cases e.norms with
    | none => exact W.good_nil
    | some n => exact writeNorms_good n.inner off
  refine ⟨?_, _, _, _, _, rfl, rfl, rfl, rfl, ?_⟩
  · exact andThen_good (Header.write_good _) (andThen_good (hm _) (andThen_good (hv _)
      (andThen_good (hs _) (hn _))))
  · unfold Embeddings.write
    rw [andThen_bytes (Header.write_good _), andThen_bytes (hm _), andThen_bytes (hv _), andThen_bytes (hs _)]

end

section
variable {T V S : Type} [Toml T] [WriteChunk V] [ReadChunk V] [VocabChunk V] [WriteChunk S]

/-- Reading back header and metadata. -/
theorem readOptMetadata_readsAt (e : Embeddings T V S F32) (hs : chunkId e.storage ≠ .header)
    (hm : ∀ m ∈ e.metadata, RoundTrips m) (off : Nat) :
    ReadsAt (readOptMetadata : Rd (Option (Metadata T))) off ((Header.mk e.chunkIds).write.bytes ++
      (writeOpt e.metadata (off + (Header.mk e.chunkIds).write.size)).bytes) e.metadata := by
  have hids := chunkIds_ne e (VocabChunk.id_ne _).1 hs
  have h := Header.read_readsAt ⟨e.chunkIds⟩ off hids.1 hids.2
  unfold readOptMetadata
  refine h.bind ?_
  cases hmd : e.metadata with
  | none =>
    have he : e.chunkIds = chunkId e.vocab :: (Embeddings.chunkIds e).tail := by
      unfold Embeddings.chunkIds; rw [hmd]; rfl
    rw [he]
    simp only
    rw [if_neg (VocabChunk.id_ne e.vocab).2]
    exact ReadsAt.pure _ _
  | some m =>
    have he : e.chunkIds = .metadata :: (Embeddings.chunkIds e).tail := by
      unfold Embeddings.chunkIds; rw [hmd]; rfl
    rw [he]
    simp only [if_true]
    exact ReadsAt.map some ((hm m hmd).readsAt _)

end

end FF
