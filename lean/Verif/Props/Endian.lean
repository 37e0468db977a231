import Verif.Model.Endian
import Verif.Lemmas.Panics
import Verif.Props.Mmap
import Verif.Props.EmbeddingsIO

/-!
# C93: the byte order of the machine
-/

namespace FF

open Rd Res

theorem foldl_be (bs : Bytes) (v : Nat) :
    bs.foldl (fun v b => 256 * v + b.toNat) v = leVal bs.reverse + 256 ^ bs.length * v := by
  induction bs generalizing v with
  | nil => simp [leVal]
  | cons b bs ih =>
    have happ : ∀ (xs : Bytes) (y : UInt8), leVal (xs ++ [y]) = leVal xs + 256 ^ xs.length * y.toNat := by
      intro xs y
      induction xs with
      | nil => simp [leVal]
      | cons x xs ihx =>
        simp only [List.cons_append, leVal, ihx, List.length_cons, Nat.pow_succ, Nat.mul_add]
        rw [Nat.mul_comm (256 ^ xs.length) 256, Nat.mul_assoc]; omega
    rw [List.foldl_cons, ih, List.reverse_cons, happ, List.length_reverse, List.length_cons, Nat.pow_succ,
      Nat.mul_add, Nat.mul_assoc]
    omega

/-- Swapping the bytes of what a big-endian machine loads gives what a little-endian machine loads. -/
theorem swapBytes_load {bs : Bytes} (h : bs.length = 4) : swapBytes (Endian.big.load bs) = f32Val bs := by
  have hlt := leVal_lt bs.reverse
  rw [List.length_reverse, h] at hlt
  unfold swapBytes Endian.load f32Val
  dsimp only
  rw [foldl_be, Nat.mul_zero, Nat.add_zero, UInt32.toNat_ofNat_of_lt' (by simpa using hlt)]
  have := leBytes_leVal bs.reverse
  rw [List.length_reverse, h] at this
  rw [this, List.reverse_reverse]

theorem fromSlice_loads (e : Endian) (n : Nat) (bs : Bytes) (h : bs.length = 4 * n) :
    e.fromSlice (e.loads n bs) = decodeF32s n bs := by
  induction n generalizing bs with
  | zero => cases e <;> rfl
  | succ n ih =>
    have ih := ih (bs.drop 4) (by rw [List.length_drop]; omega)
    have h4 : (bs.take 4).length = 4 := by rw [List.length_take]; omega
    cases e with
    | little =>
      show Endian.little.load _ :: Endian.little.loads n _ = f32Val _ :: decodeF32s n _
      rw [← ih]; rfl
    | big =>
      show swapBytes (Endian.big.load _) :: (Endian.big.loads n _).map swapBytes = f32Val _ :: decodeF32s n _
      rw [← ih, swapBytes_load h4]; rfl

theorem Mmap.slice_length {m : Mmap} {s n : Nat} {bs : Bytes} (h : m.slice s n = .ok bs) : bs.length = n := by
  unfold Mmap.slice at h
  split at h
  · cases h; simp_all
  · split at h
    · cases h
      simp only [List.length_append, List.length_replicate, List.length_take, List.length_drop]
      omega
    · cases h

theorem embeddingOn_eq (e : Endian) (a : MmapArray) (i : Nat) : a.embeddingOn e i = embedding a i := by
  show (a.rawRow e i).bind _ = a.row i
  unfold MmapArray.rawRow MmapArray.row
  split
  · cases h : a.map.slice (4 * (i * a.cols)) (4 * a.cols) with
    | ok bs =>
      show Res.ok (e.fromSlice (e.loads a.cols bs)) = .ok _
      rw [fromSlice_loads e _ _ (Mmap.slice_length h)]
    | err x => rfl
    | panic => rfl
  · rfl

theorem embeddingsOn_eq (e : Endian) (a : MmapArray) (is : List Nat) : a.embeddingsOn e is = embeddings a is := by
  show (is.mapM (a.rawRow e)).bind (fun rows => Res.ok (⟨a.cols, rows.map e.fromSlice⟩ : Mat F32)) =
    (is.mapM a.row).map fun rs => (⟨a.cols, rs⟩ : Mat F32)
  have hrow : ∀ i, a.row i = (a.rawRow e i).map e.fromSlice := by
    intro i
    have := embeddingOn_eq e a i
    rw [show a.row i = embedding a i from rfl, ← this]
    show (a.rawRow e i).bind _ = _
    cases a.rawRow e i <;> rfl
  suffices h : is.mapM a.row = (is.mapM (a.rawRow e)).map (List.map e.fromSlice) by
    rw [h]
    cases is.mapM (a.rawRow e) <;> rfl
  induction is with
  | nil => rfl
  | cons i is ih =>
    simp only [List.mapM_cons]
    rw [ih, hrow]
    cases a.rawRow e i with
    | ok r => cases is.mapM (a.rawRow e) <;> rfl
    | err x => rfl
    | panic => rfl

/-- C93, lookups: whatever the byte order of the machine, a chunk that can be read into memory can be mapped, and the mapped
matrix has the vectors, the matrices of selected rows and the row mappings of the matrix in memory. -/
theorem c93_read (e : Endian) (d : Bytes) (pos p : Nat) (a : NdArray F32)
    (h : (readChunk : Rd (NdArray F32)) d pos = .ok (a, p)) :
    ∃ m, mmapNdArray d pos = .ok (m, p) ∧ shape m = shape a ∧ (∀ i, m.embeddingOn e i = embedding a i) ∧
      (∀ is, m.embeddingsOn e is = embeddings a is) ∧
      ∀ mapping, m.cloneOn e mapping = cloneFromMapping a mapping := by
  obtain ⟨m, hm, ⟨hs, hr, hrs⟩, -, hc, -⟩ := c21_array d pos p a h
  refine ⟨m, hm, hs, fun i => by rw [embeddingOn_eq, hr], fun is => by rw [embeddingsOn_eq, hrs], fun mapping => ?_⟩
  rw [← hc]
  show (m.embeddingsOn e mapping).map _ = (embeddings m mapping).map _
  rw [embeddingsOn_eq]

/-- The matrix of the examples: NaN with a payload, and numbers whose bytes are not a palindrome. -/
def exampleMapped : MmapArray :=
  ⟨⟨(writeChunk (NdArray.mk (⟨2, [[1, 2], [3, 0x7fc00001]]⟩ : Mat F32)) 0).bytes, 32, 16⟩, 2, 2⟩

example := c93_read .big (writeChunk (NdArray.mk (⟨2, [[1, 2], [3, 0x7fc00001]]⟩ : Mat F32)) 0).bytes 0 48
  ⟨⟨2, [[1, 2], [3, 0x7fc00001]]⟩⟩ (by decide +kernel)

example : exampleMapped.embeddingOn .big 1 = .ok [3, 0x7fc00001] ∧
    exampleMapped.rawRow .big 1 = .ok [0x03000000, 0x0100c07f] := by decide +kernel

/-- C93, any storage: on machines of both byte orders every lookup has the same outcome, also where this is a panic or a
crash; so what the other properties say about lookups holds for both. -/
theorem c93_wrap [Scalar F32] (e : Endian) (s : StorageWrap) :
    (∀ i, s.embeddingOn e i = embedding s i) ∧ (∀ is, s.embeddingsOn e is = embeddings s is) ∧
      ∀ mapping, s.cloneOn e mapping = cloneFromMapping s mapping := by
  cases s with
  | mmapArray a =>
    refine ⟨embeddingOn_eq e a, embeddingsOn_eq e a, fun mapping => ?_⟩
    show ((a.embeddingsOn e mapping).map _).map _ = ((embeddings a mapping).map _).map _
    rw [embeddingsOn_eq]
  | _ => exact ⟨fun _ => rfl, fun _ => rfl, fun _ => rfl⟩

variable {T : Type} [Toml T] {V : Type}

theorem chunkIdsOn_big [WriteChunk V] {e : Embeddings T V StorageWrap F32} {a : MmapArray}
    (h : e.storage = .mmapArray a) : e.chunkIdsOn .big = .panic := by
  unfold Embeddings.chunkIdsOn
  rw [h]; rfl

theorem chunkIdsOn_ok [WriteChunk V] {m : Endian} {e : Embeddings T V StorageWrap F32}
    (h : e.storage.chunkIdOn m = .ok (chunkId e.storage)) : e.chunkIdsOn m = .ok e.chunkIds := by
  unfold Embeddings.chunkIdsOn Embeddings.chunkIds
  rw [h]
  cases e.metadata <;> cases e.norms <;> rfl

theorem writeOn_eq [WriteChunk V] {m : Endian} {e : Embeddings T V StorageWrap F32} (off : Nat)
    (h : e.storage.chunkIdOn m = .ok (chunkId e.storage)) (hw : e.storage.writeOn m = writeChunk e.storage)
    (hl : ∀ off, e.storage.chunkLenOn m off = .ok (chunkLen e.storage off)) :
    e.writeOn m off = e.write off ∧ e.writeLenOn m off = .ok (e.writeLen off) := by
  refine ⟨?_, ?_⟩
  · unfold Embeddings.writeOn Embeddings.write
    rw [chunkIdsOn_ok h, hw]
  · unfold Embeddings.writeLenOn Embeddings.writeLen
    rw [chunkIdsOn_ok h]
    simp only [ok_bind, hl]
    rfl

/-- C93, writing: on a big-endian machine, embeddings with a mapped dense matrix cannot be written: the call panics before the
first byte, and so does asking for the length. -/
theorem c93_panic [WriteChunk V] (e : Embeddings T V StorageWrap F32) (off : Nat) :
    ((∃ a, e.storage = .mmapArray a) →
      (e.writeOn .big off).bytes = [] ∧ (e.writeOn .big off).status = .panic ∧ e.writeLenOn .big off = .panic) ∧
    ((∀ a, e.storage ≠ .mmapArray a) →
      e.writeOn .big off = e.write off ∧ e.writeLenOn .big off = .ok (e.writeLen off)) := by
  refine ⟨fun ⟨a, ha⟩ => ?_, fun h => ?_⟩
  · have hw : e.writeOn .big off = W.done .panic := by
      unfold Embeddings.writeOn; rw [chunkIdsOn_big ha]
    refine ⟨by rw [hw]; rfl, by rw [hw]; rfl, ?_⟩
    unfold Embeddings.writeLenOn
    rw [chunkIdsOn_big ha]; rfl
  · cases hs : e.storage with
    | mmapArray a => exact absurd hs (h a)
    | _ => exact writeOn_eq off (by rw [hs]; rfl) (by rw [hs]; rfl) (by rw [hs]; exact fun _ => rfl)

attribute [local instance] exampleToml in
example : (Embeddings.writeOn .big { exampleEmbeddings with storage := .mmapArray exampleMapped } 0).status = .panic ∧
    (Embeddings.writeOn .big exampleEmbeddings 0) = exampleEmbeddings.write 0 ∧
    (exampleEmbeddings.write 0).bytes ≠ [] :=
  ⟨((c93_panic { exampleEmbeddings with storage := .mmapArray exampleMapped } 0).1 ⟨_, rfl⟩).2.1,
    ((c93_panic exampleEmbeddings 0).2 (fun _ h => by cases h)).1, by decide +kernel⟩

/-- C93, storages by themselves: on a big-endian machine a mapped dense matrix has neither an identifier nor a length and
writes nothing; all other storages are as before. -/
theorem c93_storage (s : StorageWrap) (off : Nat) :
    ((∃ a, s = .mmapArray a) → s.chunkIdOn .big = .panic ∧ s.chunkLenOn .big off = .panic ∧
      (s.writeOn .big off).bytes = [] ∧ (s.writeOn .big off).status = .panic) ∧
    ((∀ a, s ≠ .mmapArray a) → s.chunkIdOn .big = .ok (chunkId s) ∧ s.chunkLenOn .big off = .ok (chunkLen s off) ∧
      s.writeOn .big off = writeChunk s off) := by
  refine ⟨?_, fun h => ?_⟩
  · rintro ⟨a, rfl⟩
    exact ⟨rfl, rfl, rfl, rfl⟩
  · cases s with
    | mmapArray a => exact absurd rfl (h a)
    | _ => exact ⟨rfl, rfl, rfl⟩

example : (StorageWrap.mmapArray exampleMapped).chunkLenOn .big 5 = .panic ∧
    (StorageWrap.mmapArray exampleMapped).chunkLenOn .little 5 = .ok (chunkLen exampleMapped 5) := ⟨rfl, rfl⟩

/-- C93, little-endian machines: nothing is different there. -/
theorem c93_little [WriteChunk V] (e : Embeddings T V StorageWrap F32) (off : Nat) :
    e.writeOn .little off = e.write off ∧ e.writeLenOn .little off = .ok (e.writeLen off) ∧
      mmapStorageViewWrapOn .little = mmapStorageViewWrap := by
  refine (and_assoc.mp ⟨?_, ?_⟩)
  · cases hs : e.storage <;> exact writeOn_eq off (by rw [hs]; rfl) (by rw [hs]; rfl) (by rw [hs]; exact fun _ => rfl)
  · unfold mmapStorageViewWrapOn mmapStorageViewWrap
    congr 1
    funext id
    cases id <;> rfl

/-- C93, views: on a big-endian machine no chunk can be mapped as a storage with views. -/
theorem c93_view (d : Bytes) (pos : Nat) :
    (∀ r, mmapStorageViewWrapOn .big d pos ≠ .ok r) ∧ mmapStorageViewWrapOn .big d pos ≠ .panic ∧
      (∀ m p, mmapNdArray d pos = .ok (m, p) → mmapStorageViewWrapOn .big d pos = .err .format) := by
  have hb : mmapStorageViewWrapOn .big d pos = (peekChunkId d pos).bind fun _ => .err .format := by
    show (peekChunkId d pos).bind _ = _
    cases peekChunkId d pos <;> rfl
  rw [hb]
  have hnp : peekChunkId d pos ≠ .panic := by
    intro h
    unfold peekChunkId at h
    cases hc : readChunkId d pos with
    | panic => exact readChunkId_noPanic _ _ hc
    | ok r => rw [hc] at h; cases h
    | err x => rw [hc] at h; cases h
  refine ⟨fun r h => ?_, fun h => ?_, fun m p h => ?_⟩
  · cases hp : peekChunkId d pos <;> rw [hp] at h <;> cases h
  · cases hp : peekChunkId d pos <;> rw [hp] at h
    · cases h
    · cases h
    · exact hnp hp
  · unfold mmapNdArray readNdArrayHead ensureChunkType at h
    obtain ⟨r, p1, h1, -⟩ := Rd.bind_ok.mp h
    obtain ⟨u, p2, h2, -⟩ := Rd.bind_ok.mp h1
    obtain ⟨c, p3, h3, -⟩ := Rd.bind_ok.mp h2
    unfold peekChunkId
    rw [h3]; rfl

example : mmapStorageViewWrapOn .big exampleMapped.map.file 0 = .err .format :=
  (c93_view _ _).2.2 exampleMapped 48 (by decide +kernel)

end FF
