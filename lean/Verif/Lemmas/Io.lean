import Verif.Model.Io

namespace FF

open Rd

theorem ChunkId.code_lt (i : ChunkId) : i.code < 2 ^ 32 := by cases i <;> decide

theorem ChunkId.ofCode_code {i : ChunkId} (h : i ≠ .header) : ofCode i.code = some i := by
  cases i <;> first | rfl | exact absurd rfl h

theorem ChunkId.code_injective {i j : ChunkId} (h : i.code = j.code) : i = j := by
  cases i <;> cases j <;> simp_all [ChunkId.code]

theorem readChunkId_readsAt {off : Nat} {i : ChunkId} (h : i ≠ .header) :
    ReadsAt readChunkId off (leBytes 4 i.code) i := by
  unfold readChunkId
  have := ReadsAt.bind (f := fun c => lift (Res.ofOption .unknownChunk (ChunkId.ofCode c)))
    (ReadsAt.readU32 (off := off) i.code_lt) (b₂ := []) (b := i)
    (by rw [ChunkId.ofCode_code h]; exact ReadsAt.lift_ok _ _)
  simpa using this

theorem ensureChunkType_readsAt {off : Nat} {i : ChunkId} (h : i ≠ .header) :
    ReadsAt (ensureChunkType i) off (leBytes 4 i.code) () := by
  unfold ensureChunkType
  have := ReadsAt.bind (f := fun c => if c ≠ i then fail .format else pure ())
    (readChunkId_readsAt (off := off) h) (b₂ := []) (b := ()) (by simpa using ReadsAt.pure _ _)
  simpa using this

theorem ensureDataType_readsAt {off t : Nat} (h : t < 2 ^ 32) :
    ReadsAt (ensureDataType t) off (leBytes 4 t) () := by
  unfold ensureDataType
  have := ReadsAt.bind (f := fun c => if c ≠ t then fail .format else pure ())
    (ReadsAt.readU32 (off := off) h) (b₂ := []) (b := ()) (by simpa using ReadsAt.pure _ _)
  simpa using this

theorem Header.write_good (h : Header) : h.write.Good := by
  simp [Header.write]
  exact W.good_each fun _ _ => W.good_u32 _

theorem Header.write_bytes (h : Header) :
    h.write.bytes = magic ++ (leBytes 4 modelVersion ++ (leBytes 4 h.ids.length ++
      h.ids.flatMap fun i => leBytes 4 i.code)) := by
  have h1 : (W.each (fun i : ChunkId => W.u32 i.code) h.ids).bytes =
      h.ids.flatMap fun i => leBytes 4 i.code := by
    rw [W.bytes_each fun _ _ => W.good_u32 _]; simp
  simp [Header.write, W.bytes_seq, h1]

theorem Header.read_readsAt (h : Header) (off : Nat) (hh : ∀ i ∈ h.ids, i ≠ .header)
    (hl : h.ids.length < 2 ^ 32) : ReadsAt Header.read off h.write.bytes h := by
  rw [Header.write_bytes]
  unfold Header.read
  refine ReadsAt.bind (ReadsAt.readExact off magic) ?_
  rw [if_neg (by simp)]
  refine ReadsAt.bind (ReadsAt.readU32 (by decide)) ?_
  rw [if_neg (by simp)]
  refine ReadsAt.bind (ReadsAt.readU32 hl) ?_
  refine ReadsAt.bind0 (ReadsAt.alloc (by unfold isizeMax; omega)) ?_
  exact ReadsAt.map Header.mk (ReadsAt.replicateM (enc := fun i => leBytes 4 i.code) h.ids _
    fun off i hi => readChunkId_readsAt (hh i hi))

theorem readChunkId_mono : Mono readChunkId := by unfold readChunkId; mono_tac
theorem ensureChunkType_mono (i) : Mono (ensureChunkType i) := by
  unfold ensureChunkType; refine readChunkId_mono.bind fun c => ?_; mono_tac
theorem ensureDataType_mono (i) : Mono (ensureDataType i) := by unfold ensureDataType; mono_tac
theorem Header.read_mono : Mono Header.read := by
  unfold Header.read; have := readChunkId_mono; mono_tac

end FF
