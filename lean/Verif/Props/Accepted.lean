import Verif.Lemmas.Parses
import Verif.Props.Malformed

/-!
# C67: exactly which finalfusion data are accepted, and with which result

`Parses p L` (Lemmas/Parses) says: the reader `p` at position `pos` returns `a` exactly if the data at `pos` has one of
the patterns `L pos a`, and stops at the end of the pattern. Bytes of a pattern must be present; gaps stand for
arbitrary bytes, which may even be missing at the end of the data (padding is skipped, not read). Together with C64,
which says exactly which data make the readers panic, this determines the outcome on all data: everything else is an
error.
-/

namespace FF

open Rd Layout Embeddings

/-! ## Steps -/

theorem Parses.ensureChunkType {i : ChunkId} (hi : i ≠ .header) :
    Parses (ensureChunkType i) fun _ _ pat => pat = lit (le32 i.code) := by
  intro d pos a q
  constructor
  · intro h
    obtain ⟨h1, rfl⟩ := ensureChunkType_ok h
    have := (Parses.readU32 d pos _ _).mp (readU32_some h1)
    obtain ⟨pat, ⟨_, rfl⟩, hm, hq⟩ := this
    exact ⟨_, rfl, hm, hq⟩
  · rintro ⟨pat, rfl, hm, rfl⟩
    have hlt : i.code < 2 ^ 32 := by cases i <;> decide
    have := (Parses.readU32 d pos _ _).mpr ⟨_, ⟨hlt, rfl⟩, hm, rfl⟩
    exact ensureChunkType_some hi (readU32_ok this).1

theorem Parses.ensureDataType {t : Nat} (ht : t < 2 ^ 32) :
    Parses (ensureDataType t) fun _ _ pat => pat = lit (le32 t) := by
  intro d pos a q
  constructor
  · intro h
    obtain ⟨h1, rfl⟩ := ensureDataType_ok h
    obtain ⟨pat, ⟨_, rfl⟩, hm, hq⟩ := (Parses.readU32 d pos _ _).mp (readU32_some h1)
    exact ⟨_, rfl, hm, hq⟩
  · rintro ⟨pat, rfl, hm, rfl⟩
    have := (Parses.readU32 d pos _ _).mpr ⟨_, ⟨ht, rfl⟩, hm, rfl⟩
    exact ensureDataType_some (readU32_ok this).1

/-- A check of a condition. -/
theorem Parses.guard {α : Type} {c : Prop} [Decidable c] {e : Err} {p : Rd α} {L : Nat → α → Pat → Prop}
    (hp : Parses p L) : Parses (if ¬ c then Rd.fail e else p) fun pos a pat => c ∧ L pos a pat := by
  by_cases hc : c
  · rw [if_neg (by simpa using hc)]
    exact hp.congr fun pos a pat => by simp [hc]
  · rw [if_pos hc]
    exact (Parses.fail e).congr fun pos a pat => by simp [hc]

theorem utf8Decode_iff {bs : Bytes} {s : Str} : Res.ofOption .format (utf8Decode bs) = .ok s ↔ bs = utf8 s := by
  constructor
  · intro h
    cases hd : utf8Decode bs with
    | none => simp [hd, Res.ofOption] at h
    | some t =>
      simp only [hd, Res.ofOption, Res.ok.injEq] at h
      rw [← h, utf8_of_utf8Decode hd]
  · rintro rfl; simp [Res.ofOption]

theorem Parses.readString : Parses readString fun _ s pat => (utf8 s).length < 2 ^ 32 ∧ pat = lit (string s) := by
  refine (Parses.readU32.bind fun n => (Parses.alloc 1 n).bind0 fun _ => (Parses.readExact n).bind fun b =>
    Parses.lift _).congr fun pos s pat => ?_
  simp only [utf8Decode_iff]
  constructor
  · rintro ⟨n, p1, p2, rfl, ⟨hn, rfl⟩, _, _, b, p3, p4, rfl, ⟨rfl, rfl⟩, rfl, rfl⟩
    exact ⟨hn, by rw [string, lit_append, List.append_nil]⟩
  · rintro ⟨hl, rfl⟩
    exact ⟨_, _, _, by rw [string, lit_append], ⟨hl, rfl⟩, (), by unfold isizeMax; omega, _, _, [],
      by rw [List.append_nil], ⟨rfl, rfl⟩, rfl, rfl⟩

theorem flatMap_lit {α : Type} (l : List α) (f : α → Bytes) : (l.flatMap fun a => lit (f a)) = lit (l.flatMap f) := by
  simp [lit, List.map_flatMap]

theorem Parses.readVocabItems (n : Nat) : Parses (readVocabItems n) fun _ ws pat => ws.length = n ∧
    24 * n ≤ isizeMax ∧ (∀ w ∈ ws, (utf8 w).length < 2 ^ 32) ∧ pat = lit (ws.flatMap string) := by
  refine ((Parses.alloc 24 n).bind0 fun _ => Parses.readString.replicateM n).congr fun pos ws pat => ?_
  rw [flatMap_lit]
  constructor
  · rintro ⟨_, h1, h2, h3, h4⟩; exact ⟨h2, h1, h3, h4⟩
  · rintro ⟨h1, h2, h3, h4⟩; exact ⟨(), h2, h1, h3, h4⟩

/-! ## Vocabularies -/

theorem parses_readChunkId : Parses readChunkId fun _ i pat => i ≠ .header ∧ pat = lit (le32 i.code) := by
  refine (Parses.readU32.bind fun c => Parses.lift (Res.ofOption .unknownChunk (ChunkId.ofCode c))).congr
    fun pos i pat => ?_
  have e : ∀ c, Res.ofOption .unknownChunk (ChunkId.ofCode c) = .ok i ↔ i ≠ .header ∧ c = i.code := by
    intro c
    have : ChunkId.ofCode c = some i ↔ i ≠ .header ∧ c = i.code := by
      constructor
      · intro h
        unfold ChunkId.ofCode at h
        split at h <;> first | (cases h; exact ⟨by decide, rfl⟩) | cases h
      · rintro ⟨h, rfl⟩
        cases i <;> first | rfl | exact absurd rfl h
    rw [← this]
    cases ChunkId.ofCode c <;> simp [Res.ofOption]
  simp only [e]
  constructor
  · rintro ⟨c, _, _, rfl, ⟨_, rfl⟩, ⟨h, rfl⟩, rfl⟩; exact ⟨h, by simp⟩
  · rintro ⟨h, rfl⟩
    exact ⟨i.code, _, [], by simp, ⟨by cases i <;> decide, rfl⟩, ⟨h, rfl⟩, rfl⟩

/-- The form of header: the letters `FiFu`, version 0 and known chunk identifiers. -/
@[reducible] def Layout.HeaderPat (_ : Nat) (h : Header) (pat : Pat) : Prop :=
    h.ids.length < 2 ^ 32 ∧ (∀ i ∈ h.ids, i ≠ .header) ∧
    pat = lit ([0x46, 0x69, 0x46, 0x75] ++ (le32 0 ++ (le32 h.ids.length ++ h.ids.flatMap fun i => le32 i.code)))

/-- C67, header: the letters `FiFu`, version 0 and known chunk identifiers. -/
theorem c67_header : Parses (readChunk : Rd Header) HeaderPat := by
  refine ((Parses.readExact 4).bind fun m => Parses.guard (c := m = magic) (Parses.readU32.bind fun v =>
    Parses.guard (c := v = modelVersion) (Parses.readU32.bind fun n => (Parses.alloc 4 n).bind0 fun _ =>
    (parses_readChunkId.replicateM n).bind fun ids => Parses.pure (⟨ids⟩ : Header)))).congr fun pos h pat => ?_
  constructor
  · rintro ⟨m, _, _, rfl, ⟨_, rfl⟩, rfl, v, _, _, rfl, ⟨_, rfl⟩, rfl, n, _, _, rfl, ⟨hn, rfl⟩, _, _, ids, _, _, rfl,
      ⟨rfl, hi, rfl⟩, rfl, rfl⟩
    exact ⟨hn, hi, by simp only [lit_append, List.append_nil, flatMap_lit]; rfl⟩
  · rintro ⟨hn, hi, rfl⟩
    simp only [lit_append, ← flatMap_lit]
    exact ⟨_, _, _, rfl, ⟨rfl, rfl⟩, rfl, 0, _, _, rfl, ⟨by decide, rfl⟩, rfl, _, _, _, rfl, ⟨hn, rfl⟩, (),
      by unfold isizeMax; omega, h.ids, _, [], by rw [List.append_nil], ⟨rfl, hi, rfl⟩, rfl, rfl⟩

/-- The form of simple vocabularies. The recorded length of the chunk is not used. -/
@[reducible] def Layout.SimplePat (_ : Nat) (v : SimpleVocab) (pat : Pat) : Prop :=
    ∃ (len : Nat) (words : List Str),
    len < 2 ^ 64 ∧ 24 * words.length ≤ isizeMax ∧ (∀ w ∈ words, (utf8 w).length < 2 ^ 32) ∧
    SimpleVocab.new words = .ok v ∧
    pat = lit (le32 1 ++ (le64 len ++ (le64 words.length ++ words.flatMap string)))

/-- C67, simple vocabularies. The recorded length of the chunk is not used. -/
theorem c67_simple : Parses (readChunk : Rd SimpleVocab) SimplePat := by
  refine ((Parses.ensureChunkType (i := .simpleVocab) (by decide)).bind fun _ => Parses.readU64.bind fun _ =>
    Parses.readU64.bind fun n => (Parses.readVocabItems n).bind fun ws => Parses.lift (SimpleVocab.new ws)).congr
    fun pos v pat => ?_
  constructor
  · rintro ⟨_, _, _, rfl, rfl, len, _, _, rfl, ⟨hlen, rfl⟩, n, _, _, rfl, ⟨_, rfl⟩, ws, _, _, rfl,
      ⟨rfl, hn, hs, rfl⟩, h, rfl⟩
    exact ⟨len, ws, hlen, hn, hs, h, by simp only [lit_append, List.append_nil]; rfl⟩
  · rintro ⟨len, ws, hlen, hn, hs, h, rfl⟩
    simp only [lit_append]
    exact ⟨(), _, _, rfl, rfl, len, _, _, rfl, ⟨hlen, rfl⟩, ws.length, _, _, rfl,
      ⟨by unfold isizeMax at hn; omega, rfl⟩, ws, _, [], by rw [List.append_nil], ⟨rfl, hn, hs, rfl⟩, h, rfl⟩

/-- C67, bucket and fastText vocabularies: what a chunk with number `k` is read as. -/
theorem parses_bucketed {I : Type} [BucketIndexer I] (id : ChunkId) (hid : id ≠ .header) :
    Parses (readBucketed id : Rd (SubwordVocab I)) fun _ v pat => ∃ (len minN maxN buckets : Nat) (words : List Str)
      (ix : I), len < 2 ^ 64 ∧ minN < 2 ^ 32 ∧ maxN < 2 ^ 32 ∧ buckets < 2 ^ 32 ∧ 24 * words.length ≤ isizeMax ∧
      (∀ w ∈ words, (utf8 w).length < 2 ^ 32) ∧ BucketIndexer.newBuckets buckets = .ok ix ∧
      SubwordVocab.new words minN maxN ix = .ok v ∧
      pat = lit (le32 id.code ++ (le64 len ++ (le64 words.length ++ (le32 minN ++ (le32 maxN ++ (le32 buckets ++
        words.flatMap string)))))) := by
  refine ((Parses.ensureChunkType hid).bind fun _ => Parses.readU64.bind fun _ =>
    Parses.readU64.bind fun n => Parses.readU32.bind fun m => Parses.readU32.bind fun M => Parses.readU32.bind fun b =>
    (Parses.readVocabItems n).bind fun ws => (Parses.lift (BucketIndexer.newBuckets b)).bind0 fun ix =>
    Parses.lift (SubwordVocab.new ws m M ix)).congr fun pos v pat => ?_
  constructor
  · rintro ⟨_, _, _, rfl, rfl, len, _, _, rfl, ⟨hlen, rfl⟩, n, _, _, rfl, ⟨_, rfl⟩, m, _, _, rfl, ⟨hm, rfl⟩,
      M, _, _, rfl, ⟨hM, rfl⟩, b, _, _, rfl, ⟨hb, rfl⟩, ws, _, _, rfl, ⟨rfl, hn, hs, rfl⟩, ix, hix, h, rfl⟩
    exact ⟨len, m, M, b, ws, ix, hlen, hm, hM, hb, hn, hs, hix, h, by simp only [lit_append, List.append_nil]⟩
  · rintro ⟨len, m, M, b, ws, ix, hlen, hm, hM, hb, hn, hs, hix, h, rfl⟩
    simp only [lit_append]
    exact ⟨(), _, _, rfl, rfl, len, _, _, rfl, ⟨hlen, rfl⟩, ws.length, _, _, rfl,
      ⟨by unfold isizeMax at hn; omega, rfl⟩, m, _, _, rfl, ⟨hm, rfl⟩, M, _, _, rfl, ⟨hM, rfl⟩, b, _, _, rfl,
      ⟨hb, rfl⟩, ws, _, [], by rw [List.append_nil], ⟨rfl, hn, hs, rfl⟩, ix, hix, h, rfl⟩

/-- The form of bucket vocabularies. -/
@[reducible] def Layout.BucketPat (_ : Nat) (v : BucketSubwordVocab) (pat : Pat) : Prop :=
    ∃ (len minN maxN exp : Nat) (words : List Str) (ix : HashIndexer), len < 2 ^ 64 ∧ minN < 2 ^ 32 ∧ maxN < 2 ^ 32 ∧
      exp < 2 ^ 32 ∧ 24 * words.length ≤ isizeMax ∧ (∀ w ∈ words, (utf8 w).length < 2 ^ 32) ∧
      BucketIndexer.newBuckets exp = .ok ix ∧ SubwordVocab.new words minN maxN ix = .ok v ∧
      pat = lit (le32 3 ++ (le64 len ++ (le64 words.length ++ (le32 minN ++ (le32 maxN ++ (le32 exp ++
        words.flatMap string))))))

/-- C67, bucket vocabularies. -/
theorem c67_bucket : Parses (readChunk : Rd BucketSubwordVocab) BucketPat := parses_bucketed .bucketSubwordVocab (by decide)

/-- The form of fastText vocabularies. -/
@[reducible] def Layout.FastTextPat (_ : Nat) (v : FastTextSubwordVocab) (pat : Pat) : Prop :=
    ∃ (len minN maxN buckets : Nat) (words : List Str) (ix : FastTextIndexer), len < 2 ^ 64 ∧ minN < 2 ^ 32 ∧
      maxN < 2 ^ 32 ∧ buckets < 2 ^ 32 ∧ 24 * words.length ≤ isizeMax ∧ (∀ w ∈ words, (utf8 w).length < 2 ^ 32) ∧
      BucketIndexer.newBuckets buckets = .ok ix ∧ SubwordVocab.new words minN maxN ix = .ok v ∧
      pat = lit (le32 7 ++ (le64 len ++ (le64 words.length ++ (le32 minN ++ (le32 maxN ++ (le32 buckets ++
        words.flatMap string))))))

/-- C67, fastText vocabularies. -/
theorem c67_fasttext : Parses (readChunk : Rd FastTextSubwordVocab) FastTextPat := parses_bucketed .fastTextSubwordVocab (by decide)

theorem Parses.readNgram : Parses readNgram fun _ g pat => ((utf8 g.1).length < 2 ^ 32 ∧ g.2 < 2 ^ 64) ∧
    pat = lit (string g.1 ++ le64 g.2) := by
  refine (Parses.readU32.bind fun n => (Parses.alloc 1 n).bind0 fun _ => (Parses.readExact n).bind fun b =>
    (Parses.lift (Res.ofOption .format (utf8Decode b))).bind0 fun s => Parses.readU64.bind fun i =>
    Parses.pure (s, i)).congr fun pos s pat => ?_
  simp only [utf8Decode_iff]
  constructor
  · rintro ⟨n, p1, p2, rfl, ⟨hn, rfl⟩, _, _, b, p3, p4, rfl, ⟨rfl, rfl⟩, t, rfl, i, _, _, rfl, ⟨hi, rfl⟩, rfl, rfl⟩
    exact ⟨⟨hn, hi⟩, by simp only [string, lit_append, List.append_nil, List.append_assoc]⟩
  · rintro ⟨⟨hl, hi⟩, rfl⟩
    simp only [string, lit_append, List.append_assoc]
    exact ⟨_, _, _, rfl, ⟨hl, rfl⟩, (), by unfold isizeMax; omega, _, _, _, rfl, ⟨rfl, rfl⟩, s.1, rfl, s.2, _, [],
      by rw [List.append_nil], ⟨hi, rfl⟩, rfl, rfl⟩

theorem Parses.readNgrams (n : Nat) : Parses (readNgrams n) fun _ gs pat => gs.length = n ∧
    32 * n ≤ isizeMax ∧ (∀ g ∈ gs, (utf8 g.1).length < 2 ^ 32 ∧ g.2 < 2 ^ 64) ∧
    pat = lit (gs.flatMap fun g => string g.1 ++ le64 g.2) := by
  refine ((Parses.alloc 32 n).bind0 fun _ => Parses.readNgram.replicateM n).congr fun pos ws pat => ?_
  rw [flatMap_lit]
  constructor
  · rintro ⟨_, h1, h2, h3, h4⟩; exact ⟨h2, h1, h3, h4⟩
  · rintro ⟨h1, h2, h3, h4⟩; exact ⟨(), h2, h1, h3, h4⟩

/-- The form of explicit vocabularies. -/
@[reducible] def Layout.ExplicitPat (_ : Nat) (v : ExplicitSubwordVocab) (pat : Pat) : Prop :=
    ∃ (len minN maxN : Nat) (words : List Str) (ngrams : List (Str × Nat)) (r : ExplicitIndexer × HMap Nat Nat),
      len < 2 ^ 64 ∧ minN < 2 ^ 32 ∧ maxN < 2 ^ 32 ∧ 24 * words.length ≤ isizeMax ∧ 32 * ngrams.length ≤ isizeMax ∧
      (∀ w ∈ words, (utf8 w).length < 2 ^ 32) ∧ (∀ g ∈ ngrams, (utf8 g.1).length < 2 ^ 32 ∧ g.2 < 2 ^ 64) ∧
      ExplicitIndexer.newWithIndices ngrams = .ok r ∧ SubwordVocab.new words minN maxN r.1 = .ok v ∧
      pat = lit (le32 8 ++ (le64 len ++ (le64 words.length ++ (le64 ngrams.length ++ (le32 minN ++ (le32 maxN ++
        (words.flatMap string ++ ngrams.flatMap fun g => string g.1 ++ le64 g.2)))))))

/-- C67, explicit vocabularies. -/
theorem c67_explicit : Parses (readChunk : Rd ExplicitSubwordVocab) ExplicitPat := by
  refine ((Parses.ensureChunkType (i := .explicitSubwordVocab) (by decide)).bind fun _ => Parses.readU64.bind fun _ =>
    Parses.readU64.bind fun n => Parses.readU64.bind fun k => Parses.readU32.bind fun m => Parses.readU32.bind fun M =>
    (Parses.readVocabItems n).bind fun ws => (Parses.readNgrams k).bind fun gs =>
    (Parses.lift (ExplicitIndexer.newWithIndices gs)).bind0 fun r =>
    Parses.lift (SubwordVocab.new ws m M r.1)).congr fun pos v pat => ?_
  constructor
  · rintro ⟨_, _, _, rfl, rfl, len, _, _, rfl, ⟨hlen, rfl⟩, n, _, _, rfl, ⟨_, rfl⟩, k, _, _, rfl, ⟨_, rfl⟩,
      m, _, _, rfl, ⟨hm, rfl⟩, M, _, _, rfl, ⟨hM, rfl⟩, ws, _, _, rfl, ⟨rfl, hn, hs, rfl⟩,
      gs, _, _, rfl, ⟨rfl, hk, hg, rfl⟩, r, hr, h, rfl⟩
    exact ⟨len, m, M, ws, gs, r, hlen, hm, hM, hn, hk, hs, hg, hr, h, by simp only [lit_append, List.append_nil]; rfl⟩
  · rintro ⟨len, m, M, ws, gs, r, hlen, hm, hM, hn, hk, hs, hg, hr, h, rfl⟩
    simp only [lit_append]
    exact ⟨(), _, _, rfl, rfl, len, _, _, rfl, ⟨hlen, rfl⟩, ws.length, _, _, rfl,
      ⟨by unfold isizeMax at hn; omega, rfl⟩, gs.length, _, _, rfl, ⟨by unfold isizeMax at hk; omega, rfl⟩,
      m, _, _, rfl, ⟨hm, rfl⟩, M, _, _, rfl, ⟨hM, rfl⟩, ws, _, _, rfl, ⟨rfl, hn, hs, rfl⟩,
      gs, _, [], by rw [List.append_nil], ⟨rfl, hk, hg, rfl⟩, r, hr, h, rfl⟩

/-- The form of floret vocabularies. They have no words. -/
@[reducible] def Layout.FloretPat (_ : Nat) (v : FloretSubwordVocab) (pat : Pat) : Prop :=
    ∃ (len minN maxN buckets hashes seed : Nat) (bow eow : Str) (ix : FloretIndexer), len < 2 ^ 64 ∧ minN < 2 ^ 32 ∧
      maxN < 2 ^ 32 ∧ buckets < 2 ^ 64 ∧ 1 ≤ hashes ∧ hashes ≤ 4 ∧ seed < 2 ^ 32 ∧ (utf8 bow).length < 2 ^ 32 ∧
      (utf8 eow).length < 2 ^ 32 ∧ FloretIndexer.new buckets hashes (UInt32.ofNat seed) = .ok ix ∧
      SubwordVocab.newWithBoundaries [] minN maxN ix bow eow = .ok v ∧
      pat = lit (le32 9 ++ (le64 len ++ (le32 minN ++ (le32 maxN ++ (le64 buckets ++ (le32 hashes ++ (le32 seed ++
        (string bow ++ string eow))))))))

/-- C67, floret vocabularies. They have no words. -/
theorem c67_floret : Parses (readChunk : Rd FloretSubwordVocab) FloretPat := by
  refine ((Parses.ensureChunkType (i := .floretSubwordVocab) (by decide)).bind fun _ => Parses.readU64.bind fun _ =>
    Parses.readU32.bind fun m => Parses.readU32.bind fun M => Parses.readU64.bind fun b => Parses.readU32.bind fun k =>
    Parses.guard (c := 1 ≤ k ∧ k ≤ 4) (Parses.readU32.bind fun s => Parses.readString.bind fun bow =>
    Parses.readString.bind fun eow => (Parses.lift (FloretIndexer.new b k (UInt32.ofNat s))).bind0 fun ix =>
    Parses.lift (SubwordVocab.newWithBoundaries [] m M ix bow eow))).congr fun pos v pat => ?_
  constructor
  · rintro ⟨_, _, _, rfl, rfl, len, _, _, rfl, ⟨hlen, rfl⟩, m, _, _, rfl, ⟨hm, rfl⟩, M, _, _, rfl, ⟨hM, rfl⟩,
      b, _, _, rfl, ⟨hb, rfl⟩, k, _, _, rfl, ⟨_, rfl⟩, ⟨hk1, hk2⟩, s, _, _, rfl, ⟨hs, rfl⟩, bow, _, _, rfl, ⟨hbow, rfl⟩,
      eow, _, _, rfl, ⟨heow, rfl⟩, ix, hix, h, rfl⟩
    exact ⟨len, m, M, b, k, s, bow, eow, ix, hlen, hm, hM, hb, hk1, hk2, hs, hbow, heow, hix, h,
      by simp only [lit_append, List.append_nil]; rfl⟩
  · rintro ⟨len, m, M, b, k, s, bow, eow, ix, hlen, hm, hM, hb, hk1, hk2, hs, hbow, heow, hix, h, rfl⟩
    simp only [lit_append]
    exact ⟨(), _, _, rfl, rfl, len, _, _, rfl, ⟨hlen, rfl⟩, m, _, _, rfl, ⟨hm, rfl⟩, M, _, _, rfl, ⟨hM, rfl⟩,
      b, _, _, rfl, ⟨hb, rfl⟩, k, _, _, rfl, ⟨by omega, rfl⟩, ⟨hk1, hk2⟩, s, _, _, rfl, ⟨hs, rfl⟩, bow, _, _, rfl,
      ⟨hbow, rfl⟩, eow, _, [], by rw [List.append_nil], ⟨heow, rfl⟩, ix, hix, h, rfl⟩

/-! ## Storages, norms, metadata -/

theorem Parses.allocArray (s : Nat) (dims : List Nat) :
    Parses (allocArray s dims) fun _ _ pat => ¬ TooBig s dims ∧ pat = [] := by
  refine (Parses.lift _).congr fun pos a pat => ?_
  have e : ∀ (c : Bool) (u : Unit), Res.assert c = .ok u ↔ c = true := by intro c u; cases c <;> simp
  rw [e, decide_eq_true_iff]
  unfold TooBig
  constructor
  · rintro ⟨h, h'⟩; exact ⟨by omega, h'⟩
  · rintro ⟨h, h'⟩; exact ⟨by omega, h'⟩

/-- The numbers of a matrix, row by row. -/
theorem Parses.readMat {β : Type} (g : Mat F32 → β) (n k : Nat) :
    Parses (Rd.readF32s (n * k) >>= fun xs => Pure.pure (g (Mat.ofFlat n k xs)))
    fun _ b pat => ∃ m : Mat F32, (m.WF ∧ m.rows.length = n ∧ m.cols = k) ∧ b = g m ∧
      pat = lit (floats m.rows.flatten) := by
  refine ((Parses.readF32s (n * k)).bind fun xs => Parses.pure (g (Mat.ofFlat n k xs))).congr fun pos m pat => ?_
  constructor
  · rintro ⟨xs, _, _, rfl, ⟨hx, rfl⟩, rfl, rfl⟩
    refine ⟨_, ⟨fun r hr => chunks_mem_length (k := k) (by omega) hr, chunks_length _ _ _, rfl⟩, rfl, ?_⟩
    rw [Mat.ofFlat, flatten_chunks hx, List.append_nil]
  · rintro ⟨m, ⟨hw, rfl, rfl⟩, rfl, rfl⟩
    refine ⟨m.rows.flatten, _, [], by rw [List.append_nil], ⟨?_, rfl⟩, ?_, rfl⟩
    · rw [List.length_flatten, List.map_congr_left hw, List.map_const', List.sum_replicate_nat]
    · have := chunks_flatten m.rows m.cols hw []
      rw [List.append_nil] at this
      rw [Mat.ofFlat, this]

theorem padding_iff {pos k : Nat} : padding 4 pos = k ↔ 1 ≤ k ∧ k ≤ 4 ∧ (pos + k) % 4 = 0 := by
  unfold padding; omega

/-- Skipping to the next multiple of 4. -/
theorem Parses.pad {α : Type} {f : Rd α} {M : Nat → α → Pat → Prop} (hf : Parses f M) :
    Parses (Rd.position >>= fun p => Rd.skip (padding 4 p) >>= fun _ => f) fun pos a pat => ∃ k p2,
      pat = gap k ++ p2 ∧ (1 ≤ k ∧ k ≤ 4 ∧ (pos + k) % 4 = 0) ∧ M (pos + k) a p2 := by
  refine (Parses.position.bind fun p => (Parses.skip (padding 4 p)).bind fun _ => hf).congr fun pos a pat => ?_
  constructor
  · rintro ⟨p, _, _, rfl, ⟨rfl, rfl⟩, _, _, p2, rfl, rfl, h⟩
    rw [gap_length] at h
    exact ⟨padding 4 p, p2, rfl, padding_iff.mp rfl, h⟩
  · rintro ⟨k, p2, rfl, hk, h⟩
    have := padding_iff.mpr hk
    exact ⟨pos, [], _, rfl, ⟨rfl, rfl⟩, (), gap k, p2, rfl, by rw [this], by rw [gap_length]; exact h⟩

/-- The form of arrays: chunk 2 whose numbers start at the next position that is a multiple of 4. -/
@[reducible] def Layout.ArrayPat (pos : Nat) (a : NdArray F32) (pat : Pat) : Prop :=
    ∃ len k : Nat, len < 2 ^ 64 ∧
    a.inner.WF ∧ a.inner.rows.length < 2 ^ 64 ∧ a.inner.cols < 2 ^ 32 ∧ ¬ TooBig 4 [a.inner.rows.length, a.inner.cols] ∧
    1 ≤ k ∧ k ≤ 4 ∧ (pos + 28 + k) % 4 = 0 ∧
    pat = lit (le32 2) ++ (lit (le64 len) ++ (lit (le64 a.inner.rows.length) ++ (lit (le32 a.inner.cols) ++
      (lit (le32 10) ++ (gap k ++ lit (floats a.inner.rows.flatten))))))

/-- C67, arrays: chunk 2 whose numbers start at the next position that is a multiple of 4. -/
theorem c67_array : Parses (readChunk : Rd (NdArray F32)) ArrayPat := by
  have h1 := (Parses.ensureChunkType (i := .ndArray) (by decide)).bind fun _ => Parses.readU64.bind fun _ =>
    Parses.readU64.bind fun r => Parses.readU32.bind fun c => (Parses.ensureDataType (t := 10) (by decide)).bind fun _ =>
    (Parses.pure (r, c)).pad
  refine (h1.bind fun rc => (Parses.allocArray 4 [rc.1, rc.2]).bind0 fun _ => 
    Parses.readMat (fun m => (⟨m⟩ : NdArray F32)) rc.1 rc.2).congr fun pos v pat => ?_
  have hlen : ∀ a b c d e : Bytes, a.length = 4 → b.length = 8 → c.length = 8 → d.length = 4 → e.length = 4 →
      pos + (lit a).length + (lit b).length + (lit c).length + (lit d).length + (lit e).length = pos + 28 := by
    intro a b c d e; simp only [lit_length]; omega
  constructor
  · rintro ⟨rc, _, _, rfl, ⟨_, _, _, rfl, rfl, len, _, _, rfl, ⟨hlen', rfl⟩, r, _, _, rfl, ⟨hr, rfl⟩,
      c, _, _, rfl, ⟨hc, rfl⟩, _, _, _, rfl, rfl, k, _, rfl, hk, rfl, rfl⟩,
      _, ht, m, ⟨hw, rfl, rfl⟩, rfl, rfl⟩
    rw [hlen _ _ _ _ _ rfl rfl rfl rfl rfl] at hk
    refine ⟨len, k, hlen', hw, hr, hc, ht, hk.1, hk.2.1, hk.2.2, by simp only [List.append_assoc, List.append_nil]; rfl⟩
  · rintro ⟨len, k, hlen', hw, hr, hc, ht, hk1, hk2, hk, rfl⟩
    refine ⟨(v.inner.rows.length, v.inner.cols), _, _, ?_, ⟨(), _, _, rfl, rfl, len, _, _, rfl, ⟨hlen', rfl⟩, _, _, _, rfl,
      ⟨hr, rfl⟩, _, _, _, rfl, ⟨hc, rfl⟩, (), _, _, rfl, rfl, k, [], rfl, ⟨hk1, hk2, ?_⟩, rfl, rfl⟩, (), ht,
      v.inner, ⟨hw, rfl, rfl⟩, rfl, rfl⟩
    · simp only [List.append_assoc, List.append_nil]; rfl
    · rw [hlen _ _ _ _ _ rfl rfl rfl rfl rfl]; exact hk

/-- The form of norms: chunk 6 whose numbers start at the next position that is a multiple of 4. -/
@[reducible] def Layout.NormsPat (pos : Nat) (a : NdNorms F32) (pat : Pat) : Prop :=
    ∃ len k : Nat, len < 2 ^ 64 ∧
    a.inner.length < 2 ^ 64 ∧ ¬ TooBig 4 [a.inner.length] ∧ 1 ≤ k ∧ k ≤ 4 ∧ (pos + 24 + k) % 4 = 0 ∧
    pat = lit (le32 6) ++ (lit (le64 len) ++ (lit (le64 a.inner.length) ++ (lit (le32 10) ++
      (gap k ++ lit (floats a.inner)))))

/-- C67, norms: chunk 6 whose numbers start at the next position that is a multiple of 4. -/
theorem c67_norms : Parses (readChunk : Rd (NdNorms F32)) NormsPat := by
  refine ((Parses.ensureChunkType (i := .ndNorms) (by decide)).bind fun _ => Parses.readU64.bind fun _ =>
    Parses.readU64.bind fun r => (Parses.ensureDataType (t := 10) (by decide)).bind fun _ =>
    ((Parses.allocArray 4 [r]).bind0 fun _ => (Parses.readF32s r).bind fun xs =>
      Parses.pure (⟨xs⟩ : NdNorms F32)).pad).congr fun pos v pat => ?_
  have hlen : ∀ a b c e : Bytes, a.length = 4 → b.length = 8 → c.length = 8 → e.length = 4 →
      pos + (lit a).length + (lit b).length + (lit c).length + (lit e).length = pos + 24 := by
    intro a b c e; simp only [lit_length]; omega
  constructor
  · rintro ⟨_, _, _, rfl, rfl, len, _, _, rfl, ⟨hlen', rfl⟩, r, _, _, rfl, ⟨hr, rfl⟩, _, _, _, rfl, rfl,
      k, _, rfl, hk, _, ht, xs, _, _, rfl, ⟨rfl, rfl⟩, rfl, rfl⟩
    rw [hlen _ _ _ _ rfl rfl rfl rfl] at hk
    refine ⟨len, k, hlen', hr, ht, hk.1, hk.2.1, hk.2.2, by simp only [List.append_nil]; rfl⟩
  · rintro ⟨len, k, hlen', hr, ht, hk1, hk2, hk, rfl⟩
    refine ⟨(), _, _, rfl, rfl, len, _, _, rfl, ⟨hlen', rfl⟩, _, _, _, rfl, ⟨hr, rfl⟩, (), _, _, rfl, rfl, k, _, rfl,
      ⟨hk1, hk2, ?_⟩, (), ht, v.inner, _, [], by rw [List.append_nil], ⟨rfl, rfl⟩, rfl, rfl⟩
    rw [hlen _ _ _ _ rfl rfl rfl rfl]; exact hk

/-- The form of metadata: chunk 5 with a TOML text. Here the recorded length counts. -/
@[reducible] def Layout.MetadataPat {T : Type} [Toml T] (_ : Nat) (m : Metadata T) (pat : Pat) : Prop :=
    ∃ text : Str,
    (utf8 text).length ≤ isizeMax ∧ Toml.parse text = some m.inner ∧
    pat = lit (le32 5 ++ (le64 (utf8 text).length ++ utf8 text))

/-- C67, metadata: chunk 5 with a TOML text. Here the recorded length counts. -/
theorem c67_metadata {T : Type} [Toml T] : Parses (readChunk : Rd (Metadata T)) MetadataPat := by
  refine ((Parses.ensureChunkType (i := .metadata) (by decide)).bind fun _ => Parses.readU64.bind fun n =>
    (Parses.alloc 1 n).bind0 fun _ => (Parses.readExact n).bind fun b =>
    (Parses.lift (Res.ofOption .format (utf8Decode b))).bind0 fun s =>
    (Parses.lift (Res.ofOption .format (Toml.parse s))).bind0 fun t => Parses.pure (⟨t⟩ : Metadata T)).congr
    fun pos m pat => ?_
  have e : ∀ (o : Option T) (t : T), Res.ofOption .format o = .ok t ↔ o = some t := by
    intro o t; cases o <;> simp [Res.ofOption]
  simp only [utf8Decode_iff, e]
  constructor
  · rintro ⟨_, _, _, rfl, rfl, n, _, _, rfl, ⟨_, rfl⟩, _, hn, b, _, _, rfl, ⟨rfl, rfl⟩, s, rfl, t, ht, rfl, rfl⟩
    exact ⟨s, by simpa using hn, ht, by simp only [lit_append, List.append_nil]; rfl⟩
  · rintro ⟨s, hn, ht, rfl⟩
    simp only [lit_append]
    exact ⟨(), _, _, rfl, rfl, (utf8 s).length, _, _, rfl, ⟨by unfold isizeMax at hn; omega, rfl⟩, (), by simpa using hn,
      _, _, [], by rw [List.append_nil], ⟨rfl, rfl⟩, s, rfl, m.inner, ht, rfl, rfl⟩

/-- The optional projection matrix, after the padding. -/
theorem parses_readProjection (flag n : Nat) : Parses (readProjection flag n) fun pos p pat => ∃ k : Nat,
    (1 ≤ k ∧ k ≤ 4 ∧ (pos + k) % 4 = 0) ∧ (flag = 0 ↔ p = none) ∧
    (∀ m, p = some m → ¬ TooBig 4 [n, n] ∧ m.WF ∧ m.rows.length = n ∧ m.cols = n) ∧
    pat = gap k ++ lit (p.toList.flatMap fun m => floats m.rows.flatten) := by
  by_cases hf : flag = 0
  · subst hf
    refine (Parses.pure (none : Option (Mat F32))).pad.congr fun pos p pat => ?_
    constructor
    · rintro ⟨k, _, rfl, hk, rfl, rfl⟩
      exact ⟨k, hk, by simp, by simp, by simp [lit]⟩
    · rintro ⟨k, hk, h1, _, rfl⟩
      have : p = none := h1.mp rfl
      subst this
      exact ⟨k, [], by simp [lit], hk, rfl, rfl⟩
  · have : readProjection flag n = (do
        let p ← position
        skip (padding 4 p)
        allocArray 4 [n, n]
        let xs ← readF32s (n * n)
        return some (Mat.ofFlat n n xs)) := by
      unfold readProjection; simp [hf]
    rw [this]
    refine (((Parses.allocArray 4 [n, n]).bind0 fun _ => Parses.readMat some n n).pad).congr fun pos p pat => ?_
    constructor
    · rintro ⟨k, _, rfl, hk, _, ht, m, ⟨hw, h1, h2⟩, rfl, rfl⟩
      refine ⟨k, hk, by simp [hf], ?_, by simp⟩
      rintro _ ⟨⟩; exact ⟨ht, hw, h1, h2⟩
    · rintro ⟨k, hk, h1, h2, rfl⟩
      cases p with
      | none => simp [hf] at h1
      | some m =>
        obtain ⟨ht, hw, h3, h4⟩ := h2 m rfl
        exact ⟨k, _, rfl, hk, (), ht, m, ⟨hw, h3, h4⟩, rfl, by simp⟩

theorem parses_readQuantizers (n c s : Nat) : Parses (readQuantizers n c s) fun _ qs pat => ¬ TooBig 4 [n, c, s] ∧
    qs.length = n ∧ (∀ m ∈ qs, m.WF ∧ m.cols = s ∧ m.rows.length = c) ∧
    pat = lit (qs.flatMap fun m => floats m.rows.flatten) := by
  refine ((Parses.allocArray 4 [n, c, s]).bind0 fun _ => (Parses.readF32s (n * (c * s))).bind fun xs =>
    Parses.pure ((chunks n (c * s) xs).map (Mat.ofFlat c s))).congr fun pos qs pat => ?_
  have e : ∀ qs : List (Mat F32), (qs.flatMap fun m => floats m.rows.flatten) = floats (Mat.flats qs) := by
    intro qs
    induction qs with
    | nil => rfl
    | cons m ms ih =>
      rw [List.flatMap_cons, ih]
      simp [floats, Mat.flats]
  rw [e]
  constructor
  · rintro ⟨_, ht, xs, _, _, rfl, ⟨hx, rfl⟩, rfl, rfl⟩
    refine ⟨ht, by simp, ?_, ?_⟩
    · intro m hm
      obtain ⟨l, hl, rfl⟩ := List.mem_map.mp hm
      have hll := chunks_mem_length (by omega) hl
      exact ⟨fun r hr => chunks_mem_length (k := s) (by omega) hr, rfl, chunks_length _ _ _⟩
    · rw [List.append_nil]
      congr 2
      rw [Mat.flats, List.map_map]
      conv => lhs; rw [← flatten_chunks hx]
      congr 1
      conv => lhs; rw [← List.map_id (chunks n (c * s) xs)]
      apply List.map_congr_left
      intro l hl
      have hll := chunks_mem_length (by omega) hl
      exact (flatten_chunks hll).symm
  · rintro ⟨ht, rfl, hq, rfl⟩
    refine ⟨(), ht, Mat.flats qs, _, [], by rw [List.append_nil], ⟨Mat.flats_length hq, rfl⟩, (chunks_flats hq).symm, rfl⟩

theorem pqNew_iff {F : Type} {proj : Option (Mat F)} {c sub : Nat} {qs : List (Mat F)} {q : Pq F} :
    Pq.new proj c sub qs = .ok q ↔ qs ≠ [] ∧ c ≠ 0 ∧ sub ≠ 0 ∧
      (∀ p, proj = some p → p.rows.length = qs.length * sub ∧ p.cols = qs.length * sub) ∧ q = ⟨proj, c, sub, qs⟩ := by
  unfold Pq.new
  have e : ∀ (c : Bool) (u : Unit), Res.assert c = .ok u ↔ c = true := by intro c u; cases c <;> simp
  rw [Res.bind_eq_ok]
  simp only [Res.bind_eq_ok, e, decide_eq_true_iff]
  have e1 : qs.length * c * sub ≠ 0 ↔ qs ≠ [] ∧ c ≠ 0 ∧ sub ≠ 0 := by
    rw [Nat.mul_ne_zero_iff, Nat.mul_ne_zero_iff, ← and_assoc]
    exact and_congr_left fun _ => and_congr_left fun _ => by simp
  have e2 : (proj.all fun p => decide (p.dim = (qs.length * sub, qs.length * sub))) = true ↔
      ∀ p, proj = some p → p.rows.length = qs.length * sub ∧ p.cols = qs.length * sub := by
    cases proj with
    | none => simp
    | some p => simp [Mat.dim, Mat.nrows]
  rw [e1]
  simp only [e2]
  constructor
  · rintro ⟨_, ⟨h1, h2, h3⟩, _, h4, h5⟩
    cases h5
    exact ⟨h1, h2, h3, h4, rfl⟩
  · rintro ⟨h1, h2, h3, h4, rfl⟩
    exact ⟨(), ⟨h1, h2, h3⟩, (), h4, rfl⟩

/-- The header of the quantizer and the quantizer. -/
theorem parses_readPq : Parses readPq fun pos r pat => ∃ projFlag normsFlag k : Nat,
    projFlag < 2 ^ 32 ∧ normsFlag < 2 ^ 32 ∧ r.quantizer.WF ∧
    (projFlag = 0 ↔ r.quantizer.projection = none) ∧ (normsFlag = 0 ↔ r.readNorms = false) ∧
    r.quantizer.quantizers.length * r.quantizer.subDim < 2 ^ 32 ∧ r.quantizer.nCentroids < 2 ^ 32 ∧
    r.nEmbeddings < 2 ^ 64 ∧
    (r.quantizer.projection ≠ none → ¬ TooBig 4 [r.quantizer.quantizers.length * r.quantizer.subDim,
      r.quantizer.quantizers.length * r.quantizer.subDim]) ∧
    ¬ TooBig 4 [r.quantizer.quantizers.length, r.quantizer.nCentroids, r.quantizer.subDim] ∧
    1 ≤ k ∧ k ≤ 4 ∧ (pos + 36 + k) % 4 = 0 ∧
    pat = lit (le32 projFlag) ++ (lit (le32 normsFlag) ++
      (lit (le32 r.quantizer.quantizers.length) ++ (lit (le32 (r.quantizer.quantizers.length * r.quantizer.subDim)) ++
      (lit (le32 r.quantizer.nCentroids) ++ (lit (le64 r.nEmbeddings) ++ (lit (le32 1) ++ (lit (le32 10) ++ (gap k ++
      (lit (r.quantizer.projection.toList.flatMap fun m => floats m.rows.flatten) ++
      lit (r.quantizer.quantizers.flatMap fun m => floats m.rows.flatten)))))))))) := by
  refine (Parses.readU32.bind fun pf => Parses.readU32.bind fun nf => Parses.readU32.bind fun ql =>
    Parses.readU32.bind fun rl => Parses.readU32.bind fun nc => Parses.readU64.bind fun ne =>
    (Parses.lift (Res.assert (decide (ql ≠ 0)))).bind0 fun _ =>
    (Parses.guard (c := rl % ql = 0) ((Parses.ensureDataType (t := 1) (by decide)).bind fun _ =>
    (Parses.ensureDataType (t := 10) (by decide)).bind fun _ => (parses_readProjection pf rl).bind fun proj =>
    (parses_readQuantizers ql nc (rl / ql)).bind fun qs => (Parses.lift (Pq.new proj nc (rl / ql) qs)).bind0 fun q =>
    Parses.pure (⟨ne, q, decide (nf ≠ 0)⟩ : PqRead)))).congr fun pos r pat => ?_
  have hlen : ∀ a b c d e f g h : Bytes, a.length = 4 → b.length = 4 → c.length = 4 → d.length = 4 → e.length = 4 →
      f.length = 8 → g.length = 4 → h.length = 4 →
      pos + (lit a).length + (lit b).length + (lit c).length + (lit d).length + (lit e).length + (lit f).length +
        (lit g).length + (lit h).length = pos + 36 := by
    intro a b c d e f g h; simp only [lit_length]; omega
  have e : ∀ (c : Bool) (u : Unit), Res.assert c = .ok u ↔ c = true := by intro c u; cases c <;> simp
  simp only [pqNew_iff, e, decide_eq_true_iff]
  constructor
  · rintro ⟨pf, _, _, rfl, ⟨hpf, rfl⟩, nf, _, _, rfl, ⟨hnf, rfl⟩, ql, _, _, rfl, ⟨hql, rfl⟩, rl, _, _, rfl, ⟨hrl, rfl⟩,
      nc, _, _, rfl, ⟨hnc, rfl⟩, ne, _, _, rfl, ⟨hne, rfl⟩, _, hq0, hdvd, _, _, _, rfl, rfl, _, _, _, rfl, rfl,
      proj, _, _, rfl, ⟨k, hk, hp1, hp2, rfl⟩, qs, _, _, rfl, ⟨ht, rfl, hqs, rfl⟩, q, ⟨h1, h2, h3, h4, rfl⟩, rfl, rfl⟩
    rw [hlen _ _ _ _ _ _ _ _ rfl rfl rfl rfl rfl rfl rfl rfl] at hk
    have hmul : qs.length * (rl / qs.length) = rl := Nat.mul_div_cancel' (Nat.dvd_of_mod_eq_zero hdvd)
    refine ⟨pf, nf, k, hpf, hnf, ⟨h1, h2, h3, hqs, ?_⟩, hp1, by simp, by simpa only [hmul] using hrl, hnc, hne, ?_, ht,
      hk.1, hk.2.1, hk.2.2, ?_⟩
    · intro p hp
      obtain ⟨_, a, b, c⟩ := hp2 p hp
      refine ⟨a, ?_, ?_⟩
      · show p.cols = qs.length * (rl / qs.length)
        rw [hmul, c]
      · show p.rows.length = qs.length * (rl / qs.length)
        rw [hmul, b]
    · intro hp
      cases hpp : proj with
      | none => exact absurd hpp hp
      | some p => simp only [hmul]; exact (hp2 p hpp).1
    · simp only [List.append_assoc, List.append_nil, hmul]
  · rintro ⟨pf, nf, k, hpf, hnf, hw, hp1, hn1, hrl, hnc, hne, ht1, ht, hk1, hk2, hk, rfl⟩
    have hq0 : r.quantizer.quantizers.length ≠ 0 := fun h => hw.ne (List.length_eq_zero_iff.mp h)
    have hdiv : r.quantizer.quantizers.length * r.quantizer.subDim / r.quantizer.quantizers.length =
        r.quantizer.subDim := Nat.mul_div_cancel_left _ (by omega)
    refine ⟨pf, _, _, rfl, ⟨hpf, rfl⟩, nf, _, _, rfl, ⟨hnf, rfl⟩, _, _, _, rfl, ⟨?_, rfl⟩, _, _, _, rfl, ⟨hrl, rfl⟩,
      _, _, _, rfl, ⟨hnc, rfl⟩, _, _, _, rfl, ⟨hne, rfl⟩, (), hq0, Nat.mul_mod_right _ _, (), _, _, rfl, rfl, (), _, _, rfl,
      rfl, r.quantizer.projection, gap k ++ lit (r.quantizer.projection.toList.flatMap fun m => floats m.rows.flatten),
      lit (r.quantizer.quantizers.flatMap fun m => floats m.rows.flatten), by rw [List.append_assoc], ⟨k, ⟨hk1, hk2, ?_⟩, hp1, ?_, rfl⟩, r.quantizer.quantizers, _, [],
      by rw [List.append_nil], ⟨?_, rfl, ?_, rfl⟩, r.quantizer, ⟨hw.ne, hw.cent, ?_, ?_, ?_⟩, ?_, rfl⟩
    · have : 0 < r.quantizer.subDim := Nat.pos_of_ne_zero hw.sub
      have := Nat.le_mul_of_pos_right r.quantizer.quantizers.length this
      omega
    · rw [hlen _ _ _ _ _ _ _ _ rfl rfl rfl rfl rfl rfl rfl rfl]; exact hk
    · intro m hm
      obtain ⟨a, b, c⟩ := hw.proj m hm
      exact ⟨ht1 (by simp [hm]), a, c, b⟩
    · rw [hdiv]; exact ht
    · rw [hdiv]; exact hw.shape
    · rw [hdiv]; exact hw.sub
    · intro p hp
      obtain ⟨_, b, c⟩ := hw.proj p hp
      rw [hdiv]; exact ⟨c, b⟩
    · rw [hdiv]
    · have : decide (nf ≠ 0) = r.readNorms := by
        cases h : r.readNorms <;> simp_all
      rw [this]

/-- The form of quantized arrays: chunk 4. The numbers start at the next position that is a multiple of 4. Any number other than
0 serves as flag, and the codes need not be below the number of centroids. -/
@[reducible] def Layout.QuantizedPat (pos : Nat) (a : QuantizedArray F32) (pat : Pat) : Prop :=
    ∃ len projFlag normsFlag k : Nat,
    len < 2 ^ 64 ∧ projFlag < 2 ^ 32 ∧ normsFlag < 2 ^ 32 ∧ a.WF ∧
    (projFlag = 0 ↔ a.quantizer.projection = none) ∧ (normsFlag = 0 ↔ a.norms = none) ∧
    a.quantizer.quantizers.length * a.quantizer.subDim < 2 ^ 32 ∧ a.quantizer.nCentroids < 2 ^ 32 ∧
    a.codes.rows.length < 2 ^ 64 ∧
    (a.quantizer.projection ≠ none → ¬ TooBig 4 [a.quantizer.quantizers.length * a.quantizer.subDim,
      a.quantizer.quantizers.length * a.quantizer.subDim]) ∧
    ¬ TooBig 4 [a.quantizer.quantizers.length, a.quantizer.nCentroids, a.quantizer.subDim] ∧
    (a.norms ≠ none → ¬ TooBig 4 [a.codes.rows.length]) ∧
    ¬ TooBig 1 [a.codes.rows.length, a.quantizer.quantizers.length] ∧
    1 ≤ k ∧ k ≤ 4 ∧ (pos + 48 + k) % 4 = 0 ∧
    pat = lit (le32 4) ++ (lit (le64 len) ++ (lit (le32 projFlag) ++ (lit (le32 normsFlag) ++
      (lit (le32 a.quantizer.quantizers.length) ++ (lit (le32 (a.quantizer.quantizers.length * a.quantizer.subDim)) ++
      (lit (le32 a.quantizer.nCentroids) ++ (lit (le64 a.codes.rows.length) ++ (lit (le32 1) ++ (lit (le32 10) ++ (gap k ++
      (lit (a.quantizer.projection.toList.flatMap fun m => floats m.rows.flatten) ++
      (lit (a.quantizer.quantizers.flatMap fun m => floats m.rows.flatten) ++
      (lit (a.norms.toList.flatMap floats) ++ lit a.codes.rows.flatten)))))))))))))

/-- C67, quantized arrays: chunk 4. The numbers start at the next position that is a multiple of 4. Any number other than
0 serves as flag, and the codes need not be below the number of centroids. -/
theorem c67_quantized : Parses (readChunk : Rd (QuantizedArray F32)) QuantizedPat := by
  have hn : ∀ (b : Bool) (n : Nat), Parses (readQuantizedNorms b n) fun _ ns pat => (b = false ↔ ns = none) ∧
      (∀ xs, ns = some xs → ¬ TooBig 4 [n] ∧ xs.length = n) ∧ pat = lit (ns.toList.flatMap floats) := by
    intro b n
    cases b with
    | false =>
      refine (Parses.pure (none : Option (List F32))).congr fun pos ns pat => ?_
      constructor
      · rintro ⟨rfl, rfl⟩; exact ⟨by simp, by simp, rfl⟩
      · rintro ⟨h, _, rfl⟩
        have : ns = none := h.mp rfl
        subst this; exact ⟨rfl, rfl⟩
    | true =>
      refine ((Parses.allocArray 4 [n]).bind0 fun _ => (Parses.readF32s n).bind fun xs =>
        Parses.pure (some xs)).congr fun pos ns pat => ?_
      constructor
      · rintro ⟨_, ht, xs, _, _, rfl, ⟨rfl, rfl⟩, rfl, rfl⟩
        exact ⟨by simp, by rintro _ ⟨⟩; exact ⟨ht, rfl⟩, by simp⟩
      · rintro ⟨h, h2, rfl⟩
        cases ns with
        | none => simp at h
        | some xs =>
          obtain ⟨ht, rfl⟩ := h2 xs rfl
          exact ⟨(), ht, xs, _, [], by simp, ⟨rfl, rfl⟩, rfl, rfl⟩
  have h1 := (Parses.ensureChunkType (i := .quantizedArray) (by decide)).bind fun _ => Parses.readU64.bind fun _ =>
    parses_readPq.bind fun r => (hn r.readNorms r.nEmbeddings).bind fun ns => Parses.pure (r, ns)
  refine (h1.bind fun rn => (Parses.allocArray 1 [rn.1.nEmbeddings, rn.1.quantizer.quantizedLen]).bind0 fun _ =>
    (Parses.readExact (rn.1.nEmbeddings * rn.1.quantizer.quantizedLen)).bind fun cs =>
    Parses.pure (⟨rn.1.quantizer, Mat.ofFlat rn.1.nEmbeddings rn.1.quantizer.quantizedLen cs, rn.2⟩ :
      QuantizedArray F32)).congr fun pos a pat => ?_
  have hlen : ∀ a b : Bytes, a.length = 4 → b.length = 8 → pos + (lit a).length + (lit b).length + 36 = pos + 48 := by
    intro a b; simp only [lit_length]; omega
  constructor
  · rintro ⟨_, _, _, rfl, ⟨_, _, _, rfl, rfl, len, _, _, rfl, ⟨hl, rfl⟩, r, _, _, rfl,
      ⟨pf, nf, k, hpf, hnf, hw, hp1, hn1, hrl, hnc, hne, ht1, ht, hk1, hk2, hk, rfl⟩, ns, _, _, rfl,
      ⟨hns1, hns2, rfl⟩, rfl, rfl⟩, _, ht3, cs, _, _, rfl, ⟨hcs, rfl⟩, rfl, rfl⟩
    rw [hlen _ _ rfl rfl] at hk
    have hnr : (Mat.ofFlat r.nEmbeddings r.quantizer.quantizedLen cs).rows.length = r.nEmbeddings := chunks_length _ _ _
    have hfl : (Mat.ofFlat r.nEmbeddings r.quantizer.quantizedLen cs).rows.flatten = cs := flatten_chunks hcs
    refine ⟨len, pf, nf, k, hl, hpf, hnf, ⟨hw, ?_, rfl, ?_⟩, hp1, hn1.trans hns1, hrl, hnc, by simpa only [hnr] using hne,
      ht1, ht, ?_, by rw [hnr]; exact ht3, hk1, hk2, hk, ?_⟩
    · exact fun r' hr => chunks_mem_length (k := r.quantizer.quantizedLen) (Nat.le_of_eq hcs.symm) hr
    · intro xs hxs
      exact (hns2 xs hxs).2.trans hnr.symm
    · intro h
      cases hns : ns with
      | none => exact absurd hns h
      | some xs => simpa only [hnr] using (hns2 xs hns).1
    · simp only [hnr, hfl, List.append_assoc, List.append_nil]; rfl
  · rintro ⟨len, pf, nf, k, hl, hpf, hnf, hw, hp1, hn1, hrl, hnc, hne, ht1, ht, ht2, ht3, hk1, hk2, hk, rfl⟩
    refine ⟨(⟨a.codes.rows.length, a.quantizer, decide (a.norms ≠ none)⟩, a.norms), _, _, ?_,
      ⟨(), _, _, rfl, rfl, len, _, _, rfl, ⟨hl, rfl⟩, _, _, _, rfl,
      ⟨pf, nf, k, hpf, hnf, hw.pq, hp1, by simpa using hn1, hrl, hnc, hne, ht1, ht, hk1, hk2, ?_, rfl⟩, a.norms, _, [], rfl,
      ⟨by simp, ?_, rfl⟩, rfl, rfl⟩, (), ht3, a.codes.rows.flatten, _, [], rfl, ⟨?_, rfl⟩, ?_, rfl⟩
    · simp only [List.append_assoc, List.append_nil]; rfl
    · rw [hlen _ _ rfl rfl]; exact hk
    · intro xs hxs
      exact ⟨ht2 (by simp [hxs]), hw.norms xs hxs⟩
    · rw [← hw.cols, Mat.flatten_length hw.codes]; rfl
    · have := Mat.ofFlat_flatten hw.codes
      rw [hw.cols] at this
      obtain ⟨q, c, n⟩ := a
      simp only [QuantizedArray.mk.injEq, true_and, and_true]
      exact (by simpa using this.symm : c = Mat.ofFlat c.nrows q.quantizedLen c.rows.flatten)

/-! ## Vocabularies and storages of any kind -/

/-- Choosing the reader by the identifier of the next chunk. -/
theorem Parses.choose {β : Type} {f : ChunkId → Rd β} {M : ChunkId → Nat → β → Pat → Prop}
    (hf : ∀ i, i ≠ .header → Parses (f i) (M i))
    (hM : ∀ i pos b pat, M i pos b pat → ∃ rest, pat = lit (le32 i.code) ++ rest) :
    Parses (peekChunkId >>= f) fun pos b pat => ∃ i, i ≠ .header ∧ M i pos b pat := by
  intro d pos b q
  rw [Rd.bind_ok]
  have hp : ∀ i q, peekChunkId d pos = .ok (i, q) ↔ q = pos ∧ i ≠ .header ∧ Matches d pos (lit (le32 i.code)) := by
    intro i q
    unfold peekChunkId
    constructor
    · intro h
      cases hr : readChunkId d pos with
      | err e => simp [hr, Res.map] at h
      | panic => simp [hr, Res.map] at h
      | ok r =>
        simp only [hr, Res.map, Res.ok.injEq, Prod.mk.injEq] at h
        obtain ⟨rfl, rfl⟩ := h
        obtain ⟨_, ⟨h1, rfl⟩, h2, _⟩ := (parses_readChunkId _ _ _ _).mp hr
        exact ⟨rfl, h1, h2⟩
    · rintro ⟨rfl, h1, h2⟩
      rw [(parses_readChunkId _ _ _ _).mpr ⟨_, ⟨h1, rfl⟩, h2, rfl⟩]
      rfl
  constructor
  · rintro ⟨i, q1, h1, h2⟩
    obtain ⟨rfl, hi, _⟩ := (hp _ _).mp h1
    obtain ⟨pat, h3, h4, h5⟩ := (hf i hi _ _ _ _).mp h2
    exact ⟨pat, ⟨i, hi, h3⟩, h4, h5⟩
  · rintro ⟨pat, ⟨i, hi, h3⟩, h4, h5⟩
    obtain ⟨rest, rfl⟩ := hM _ _ _ _ h3
    exact ⟨i, pos, (hp _ _).mpr ⟨rfl, hi, (Matches.append.mp h4).1⟩, (hf i hi _ _ _ _).mpr ⟨_, h3, h4, h5⟩⟩

theorem Parses.map {α β : Type} {p : Rd α} {L : Nat → α → Pat → Prop} (hp : Parses p L) (g : α → β) :
    Parses (p >>= fun a => Pure.pure (g a)) fun pos b pat => ∃ a, b = g a ∧ L pos a pat := by
  refine (hp.bind fun a => Parses.pure (g a)).congr fun pos b pat => ?_
  constructor
  · rintro ⟨a, _, _, rfl, h, rfl, rfl⟩; exact ⟨a, rfl, by rwa [List.append_nil]⟩
  · rintro ⟨a, rfl, h⟩; exact ⟨a, pat, [], by rw [List.append_nil], h, rfl, rfl⟩

/-- The form of a vocabulary of any kind: that of a vocabulary of its kind. -/
@[reducible] def Layout.VocabPat (pos : Nat) (w : VocabWrap) (pat : Pat) : Prop :=
  match w with
  | .simple v => SimplePat pos v pat
  | .bucket v => BucketPat pos v pat
  | .fastText v => FastTextPat pos v pat
  | .explicit v => ExplicitPat pos v pat
  | .floret v => FloretPat pos v pat

/-- C67, vocabularies of any kind. -/
theorem c67_vocab : Parses (readChunk : Rd VocabWrap) VocabPat := by
  show Parses readVocabWrap _
  unfold readVocabWrap
  refine (Parses.choose (M := fun i pos (w : VocabWrap) pat => match i, w with
    | .simpleVocab, .simple v => SimplePat pos v pat
    | .bucketSubwordVocab, .bucket v => BucketPat pos v pat
    | .fastTextSubwordVocab, .fastText v => FastTextPat pos v pat
    | .explicitSubwordVocab, .explicit v => ExplicitPat pos v pat
    | .floretSubwordVocab, .floret v => FloretPat pos v pat
    | _, _ => False) ?_ ?_).congr fun pos w pat => ?_
  · have no : ∀ (L : Nat → VocabWrap → Pat → Prop), (∀ pos w pat, ¬ L pos w pat) → Parses (fail .format) L :=
      fun L hL => (Parses.fail .format).congr fun pos w pat => by simp [hL]
    intro i hi
    cases i with
    | header => exact absurd rfl hi
    | simpleVocab => exact (c67_simple.map VocabWrap.simple).congr fun pos w pat => by cases w <;> simp
    | bucketSubwordVocab => exact (c67_bucket.map VocabWrap.bucket).congr fun pos w pat => by cases w <;> simp
    | fastTextSubwordVocab => exact (c67_fasttext.map VocabWrap.fastText).congr fun pos w pat => by cases w <;> simp
    | explicitSubwordVocab => exact (c67_explicit.map VocabWrap.explicit).congr fun pos w pat => by cases w <;> simp
    | floretSubwordVocab => exact (c67_floret.map VocabWrap.floret).congr fun pos w pat => by cases w <;> simp
    | _ => exact no _ fun pos w pat => by cases w <;> simp
  · intro i pos w pat h
    cases i <;> cases w <;> first | exact h.elim | skip
    · obtain ⟨_, _, _, _, _, _, rfl⟩ := h; exact ⟨_, lit_append _ _⟩
    · obtain ⟨_, _, _, _, _, _, _, _, _, _, _, _, _, _, rfl⟩ := h; exact ⟨_, lit_append _ _⟩
    · obtain ⟨_, _, _, _, _, _, _, _, _, _, _, _, _, _, rfl⟩ := h; exact ⟨_, lit_append _ _⟩
    · obtain ⟨_, _, _, _, _, _, _, _, _, _, _, _, _, _, _, rfl⟩ := h; exact ⟨_, lit_append _ _⟩
    · obtain ⟨_, _, _, _, _, _, _, _, _, _, _, _, _, _, _, _, _, _, _, _, rfl⟩ := h; exact ⟨_, lit_append _ _⟩
  · constructor
    · rintro ⟨i, hi, h⟩
      cases i <;> cases w <;> first | exact h.elim | exact h
    · intro h
      cases w
      · exact ⟨.simpleVocab, by decide, h⟩
      · exact ⟨.explicitSubwordVocab, by decide, h⟩
      · exact ⟨.fastTextSubwordVocab, by decide, h⟩
      · exact ⟨.floretSubwordVocab, by decide, h⟩
      · exact ⟨.bucketSubwordVocab, by decide, h⟩

/-- The form of a storage of any kind: that of an array or of a quantized array. Reading gives no memory maps. -/
@[reducible] def Layout.StoragePat (pos : Nat) (w : StorageWrap) (pat : Pat) : Prop :=
  match w with
  | .ndArray a => ArrayPat pos a pat
  | .quantized a => QuantizedPat pos a pat
  | _ => False

/-- C67, storages of any kind. -/
theorem c67_storage : Parses (readChunk : Rd StorageWrap) StoragePat := by
  show Parses readStorageWrap _
  unfold readStorageWrap
  refine (Parses.choose (M := fun i pos (w : StorageWrap) pat => match i, w with
    | .ndArray, .ndArray v => ArrayPat pos v pat
    | .quantizedArray, .quantized v => QuantizedPat pos v pat
    | _, _ => False) ?_ ?_).congr fun pos w pat => ?_
  · have no : ∀ (L : Nat → StorageWrap → Pat → Prop), (∀ pos w pat, ¬ L pos w pat) → Parses (fail .format) L :=
      fun L hL => (Parses.fail .format).congr fun pos w pat => by simp [hL]
    intro i hi
    cases i with
    | header => exact absurd rfl hi
    | ndArray => exact (c67_array.map StorageWrap.ndArray).congr fun pos w pat => by cases w <;> simp
    | quantizedArray => exact (c67_quantized.map StorageWrap.quantized).congr fun pos w pat => by cases w <;> simp
    | _ => exact no _ fun pos w pat => by cases w <;> simp
  · intro i pos w pat h
    cases i <;> cases w <;> first | exact h.elim | skip
    · obtain ⟨_, _, _, _, _, _, _, _, _, _, rfl⟩ := h; exact ⟨_, rfl⟩
    · obtain ⟨_, _, _, _, _, _, _, _, _, _, _, _, _, _, _, _, _, _, _, _, rfl⟩ := h; exact ⟨_, rfl⟩
  · constructor
    · rintro ⟨i, hi, h⟩
      cases i <;> cases w <;> first | exact h.elim | exact h
    · intro h
      cases w <;> first | exact h.elim | skip
      · exact ⟨.ndArray, by decide, h⟩
      · exact ⟨.quantizedArray, by decide, h⟩

/-! ## Whole files -/

/-- The form of what precedes the vocabulary: a header with at least one identifier, and the metadata if the first
identifier is that of metadata. The other identifiers do not matter. -/
@[reducible] def Layout.HeadPat {T : Type} [Toml T] (pos : Nat) (m : Option (Metadata T)) (pat : Pat) : Prop :=
  ∃ (i : ChunkId) (ids : List ChunkId) (p q : Pat), HeaderPat pos ⟨i :: ids⟩ p ∧ pat = p ++ q ∧
    match m with
    | some x => i = .metadata ∧ MetadataPat (pos + p.length) x q
    | none => i ≠ .metadata ∧ q = []

/-- C67, metadata alone: what `read_metadata` accepts. A header without identifiers is an error. -/
theorem c67_read_metadata {T : Type} [Toml T] : Parses (readOptMetadata : Rd (Option (Metadata T))) HeadPat := by
  have hf : ∀ h : Header, Parses (match h.ids with
      | [] => fail .format
      | i :: _ => if i = .metadata then (readMetadata : Rd (Metadata T)) >>= fun m => Pure.pure (some m) else Pure.pure none)
      fun pos m q => ∃ i ids, h.ids = i :: ids ∧ (match m with
        | some x => i = .metadata ∧ MetadataPat pos x q
        | none => i ≠ .metadata ∧ q = []) := by
    rintro ⟨ids⟩
    cases ids with
    | nil => exact (Parses.fail _).congr fun pos m q => by simp
    | cons i ids =>
      by_cases hi : i = .metadata
      · simp only [if_pos hi]
        exact (c67_metadata.map some).congr fun pos m q => by cases m <;> simp [hi]
      · simp only [if_neg hi]
        exact (Parses.pure none).congr fun pos m q => by cases m <;> simp [hi]
  refine (c67_header.bind hf).congr fun pos m pat => ?_
  constructor
  · rintro ⟨⟨l⟩, p, q, rfl, hp, i, ids, rfl, h⟩
    exact ⟨i, ids, p, q, hp, rfl, h⟩
  · rintro ⟨i, ids, p, q, hp, rfl, h⟩
    exact ⟨⟨i :: ids⟩, p, q, rfl, hp, i, ids, rfl, h⟩

theorem u32At_iff {d : Bytes} {pos v : Nat} : u32At d pos = some v ↔ v < 2 ^ 32 ∧ Matches d pos (lit (le32 v)) := by
  constructor
  · intro h
    obtain ⟨_, ⟨h1, rfl⟩, h2, _⟩ := (Parses.readU32 d pos _ _).mp (readU32_some h)
    exact ⟨h1, h2⟩
  · rintro ⟨h1, h2⟩
    exact (readU32_ok ((Parses.readU32 d pos _ _).mpr ⟨_, ⟨h1, rfl⟩, h2, rfl⟩)).1

theorem u64At_iff {d : Bytes} {pos v : Nat} : u64At d pos = some v ↔ v < 2 ^ 64 ∧ Matches d pos (lit (le64 v)) := by
  constructor
  · intro h
    obtain ⟨_, ⟨h1, rfl⟩, h2, _⟩ := (Parses.readU64 d pos _ _).mp (readU64_some h)
    exact ⟨h1, h2⟩
  · rintro ⟨h1, h2⟩
    exact (readU64_ok ((Parses.readU64 d pos _ _).mpr ⟨_, ⟨h1, rfl⟩, h2, rfl⟩)).1

theorem readNorms_panic_iff (d : Bytes) (pos : Nat) : (readChunk : Rd (NdNorms F32)) d pos = .panic ↔
    ∃ len n, len < 2 ^ 64 ∧ n < 2 ^ 64 ∧ isizeMax < 4 * n ∧
      Matches d pos (lit (le32 6) ++ (lit (le64 len) ++ (lit (le64 n) ++ lit (le32 10)))) := by
  refine (c56_norms d pos).trans ?_
  simp only [Matches.append, lit_length, le32_length, le64_length, u32At_iff, u64At_iff]
  constructor
  · rintro ⟨⟨_, h1⟩, ⟨l, hl, h2⟩, n, ⟨hn, h3⟩, ⟨_, h4⟩, hb⟩
    exact ⟨l, n, hl, hn, hb, h1, h2, h3, h4⟩
  · rintro ⟨l, n, hl, hn, hb, h1, h2, h3, h4⟩
    exact ⟨⟨by decide, h1⟩, ⟨l, hl, h2⟩, n, ⟨hn, h3⟩, ⟨by decide, h4⟩, hb⟩

/-- C67, whole files: reading gives the embeddings `e` exactly if the data consists of a head with the metadata of `e`, its
vocabulary and its storage, followed either by the norms of `e`; or, if `e` has no norms, by something that is not a
norms chunk and not the beginning of one with too many norms (on which the reader panics). -/
theorem c67_read {T V S : Type} [Toml T] [ReadChunk V] [ReadChunk S] {LV : Nat → V → Pat → Prop} {LS : Nat → S → Pat → Prop}
    (hV : Parses (readChunk : Rd V) LV) (hS : Parses (readChunk : Rd S) LS) (d : Bytes) (pos : Nat)
    (e : Embeddings T V S F32) :
    Embeddings.read d pos = .ok e ↔ ∃ (hp vp sp : Pat) (p q r : Nat), p = pos + hp.length ∧ q = p + vp.length ∧
      r = q + sp.length ∧ HeadPat pos e.metadata hp ∧ LV p e.vocab vp ∧ LS q e.storage sp ∧
      Matches d pos (hp ++ (vp ++ sp)) ∧
      match e.norms with
      | some n => ∃ np, NormsPat r n np ∧ Matches d r np
      | none => (∀ n np, NormsPat r n np → ¬ Matches d r np) ∧
        ∀ len n, len < 2 ^ 64 → n < 2 ^ 64 → isizeMax < 4 * n →
          ¬ Matches d r (lit (le32 6) ++ (lit (le64 len) ++ (lit (le64 n) ++ lit (le32 10)))) := by
  have hh := c67_read_metadata (T := T).bind fun m => hV.bind fun v => Parses.pure (m, v)
  have hread : ∀ d pos, (Embeddings.read d pos : Res (Embeddings T V S F32)) =
      (Embeddings.readHead (T := T) (V := V) d pos).bind fun x => ((readChunk : Rd S) d x.2).bind fun y =>
      (orNone ((readChunk : Rd (NdNorms F32)) d y.2)).bind fun n => .ok ⟨x.1.1, y.1, x.1.2, n.map (·.1)⟩ := fun _ _ => rfl
  have hb : ∀ {α β : Type} {x : Res α} {f : α → Res β} {b : β}, x.bind f = .ok b ↔ ∃ a, x = .ok a ∧ f a = .ok b := by
    intro α β x f b; exact Res.bind_eq_ok
  rw [hread, hb]
  constructor
  · rintro ⟨⟨⟨m, v⟩, q⟩, h1, h⟩
    obtain ⟨⟨s, r⟩, h2, h⟩ := hb.mp h
    obtain ⟨n, h3, h⟩ := hb.mp h
    cases h
    obtain ⟨_, ⟨_, hp, _, rfl, hhp, _, vp, _, rfl, hvp, hmv, rfl⟩, hm1, rfl⟩ := (hh _ _ _ _).mp h1
    obtain ⟨rfl, rfl⟩ := Prod.mk.inj hmv
    obtain ⟨sp, hsp, hm2, rfl⟩ := (hS _ _ _ _).mp h2
    rw [List.append_nil] at hm1 h3 hm2 hsp
    rw [List.length_append] at h3 hm2 hsp
    refine ⟨hp, vp, sp, _, _, _, rfl, rfl, rfl, hhp, hvp, ?_, ?_, ?_⟩
    · rw [Nat.add_assoc]; exact hsp
    · rw [← List.append_assoc, Matches.append]
      refine ⟨hm1, ?_⟩
      rw [List.length_append]; exact hm2
    · have h3 : orNone ((readChunk : Rd (NdNorms F32)) d (pos + hp.length + vp.length + sp.length)) = .ok n := by
        rw [Nat.add_assoc pos]; exact h3
      cases hn : (readChunk : Rd (NdNorms F32)) d (pos + hp.length + vp.length + sp.length) with
      | ok x =>
        simp only [hn, orNone, Res.ok.injEq] at h3
        subst h3
        obtain ⟨np, h4, h5, _⟩ := (c67_norms _ _ x.1 x.2).mp hn
        exact ⟨np, h4, h5⟩
      | panic => simp [hn, orNone] at h3
      | err e =>
        simp only [hn, orNone, Res.ok.injEq] at h3
        subst h3
        refine ⟨fun n np hnp hm => ?_, fun len n h1 h2 h3 h4 => ?_⟩
        · rw [(c67_norms _ _ n _).mpr ⟨np, hnp, hm, rfl⟩] at hn; cases hn
        · rw [(readNorms_panic_iff _ _).mpr ⟨len, n, h1, h2, h3, h4⟩] at hn; cases hn
  · rintro ⟨hp, vp, sp, _, _, _, rfl, rfl, rfl, hhp, hvp, hsp, hm, hn⟩
    rw [← List.append_assoc, Matches.append, List.length_append] at hm
    obtain ⟨m, s, v, ns⟩ := e
    refine ⟨((m, v), _), (hh _ _ _ _).mpr ⟨hp ++ vp, ⟨m, hp, vp, rfl, hhp, v, vp, [], by rw [List.append_nil], hvp, rfl, rfl⟩,
      hm.1, rfl⟩, hb.mpr ⟨(s, _), (hS _ _ _ _).mpr ⟨sp, ?_, ?_, rfl⟩, ?_⟩⟩
    · rw [List.length_append, ← Nat.add_assoc]; exact hsp
    · rw [List.length_append]; exact hm.2
    · simp only [List.length_append, ← Nat.add_assoc]
      cases ns with
      | some n =>
        obtain ⟨np, h1, h2⟩ := hn
        rw [(c67_norms _ _ n _).mpr ⟨np, h1, h2, rfl⟩]
        rfl
      | none =>
        obtain ⟨h1, h2⟩ := hn
        cases hn : (readChunk : Rd (NdNorms F32)) d (pos + hp.length + vp.length + sp.length) with
        | ok x =>
          obtain ⟨np, h4, h5, _⟩ := (c67_norms _ _ x.1 x.2).mp hn
          exact absurd h5 (h1 _ _ h4)
        | panic =>
          obtain ⟨len, n, h3, h4, h5, h6⟩ := (readNorms_panic_iff _ _).mp hn
          exact absurd h6 (h2 _ _ h3 h4 h5)
        | err e => rfl

/-- C67: data with a header without chunk identifiers is rejected, whatever follows. -/
theorem c67_empty_header {T V S : Type} [Toml T] [ReadChunk V] [ReadChunk S] (d : Bytes) (pos : Nat)
    (h : Matches d pos (lit ([0x46, 0x69, 0x46, 0x75] ++ (le32 0 ++ le32 0)))) :
    (readOptMetadata : Rd (Option (Metadata T))) d pos = .err .format ∧
    (Embeddings.read d pos : Res (Embeddings T V S F32)) = .err .format := by
  have h1 : Header.read d pos = .ok (⟨[]⟩, pos + 12) :=
    (c67_header d pos _ _).mpr ⟨_, ⟨by decide, by simp, rfl⟩, by simpa using h, rfl⟩
  have h2 : (readOptMetadata : Rd (Option (Metadata T))) d pos = .err .format := by
    unfold readOptMetadata
    rw [bind_apply, h1]
    rfl
  refine ⟨h2, ?_⟩
  have : (Embeddings.readHead : Rd (Option (Metadata T) × V)) d pos = .err .format := by
    unfold Embeddings.readHead
    rw [bind_apply, h2]
    rfl
  unfold Embeddings.read Embeddings.readWith
  rw [this]
  rfl

/-- `c67_empty_header` applied to a header without chunks and three more bytes. -/
example := @c67_empty_header _ VocabWrap StorageWrap exampleToml _ _
  ([0x46, 0x69, 0x46, 0x75] ++ (le32 0 ++ le32 0) ++ [1, 2, 3]) 0 (Matches.lit.mpr (.inr (by decide)))

example : Matches ([0x46, 0x69, 0x46, 0x75] ++ (le32 0 ++ le32 0) ++ [1, 2, 3]) 0
    (lit ([0x46, 0x69, 0x46, 0x75] ++ (le32 0 ++ le32 0))) := Matches.lit.mpr (.inr (by decide))

/-- A file with the words `a` and `bc` and an array with one column, whose header lists a second, unused identifier and
whose chunks record the wrong lengths 7 and 9. -/
def exampleFile : Bytes := [0x46, 0x69, 0x46, 0x75] ++ (le32 0 ++ (le32 2 ++ (le32 1 ++ le32 4))) ++
  (le32 1 ++ (le64 7 ++ (le64 2 ++ (string ['a'] ++ string ['b', 'c'])))) ++
  (le32 2 ++ le64 9 ++ le64 2 ++ le32 1 ++ le32 10 ++ [7] ++ floats [0x3f800000, 0x40000000])

/-- The example is accepted. -/
theorem exampleFile_read : @Embeddings.read _ SimpleVocab (NdArray F32) exampleToml _ _ exampleFile 0 =
    .ok ⟨none, ⟨⟨1, [[0x3f800000], [0x40000000]]⟩⟩, ⟨createIndices [['a'], ['b', 'c']], [['a'], ['b', 'c']]⟩, none⟩ := by
  decide +kernel

/-- So the example has the form described by C67. -/
example := (@c67_read _ _ _ exampleToml _ _ _ _ c67_simple c67_array exampleFile 0 _).mp exampleFile_read

end FF
