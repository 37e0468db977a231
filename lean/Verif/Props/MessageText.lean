import Verif.Props.Messages
import Verif.Lemmas.Text

/-!
# C109: what the readers say about contents that they do not accept
-/

namespace FF

open ERd Piece Layout

/-! ## Reading given fields -/

theorem reading_u32 {d : Bytes} {pos k : Nat} (desc : String) (h : u32At d pos = some k) :
    reading desc Rd.readU32 d pos = .ok (k, pos + 4) := by
  unfold reading named; rw [readU32_some h]

theorem reading_u64 {d : Bytes} {pos k : Nat} (desc : String) (h : u64At d pos = some k) :
    reading desc Rd.readU64 d pos = .ok (k, pos + 8) := by
  unfold reading named; rw [readU64_some h]

theorem bind_of_ok {α β : Type} {m : ERd α} {f : α → ERd β} {d : Bytes} {pos : Nat} {a : α} {q : Nat}
    (h : m d pos = .ok (a, q)) : (m >>= f) d pos = f a d q := by rw [ERd.bind_apply, h]; rfl

theorem bind_of_err {α β : Type} {m : ERd α} {f : α → ERd β} {d : Bytes} {pos : Nat} {e : Error}
    (h : m d pos = .err e) : (m >>= f) d pos = .err e := by rw [ERd.bind_apply, h]; rfl

theorem readChunkId_known {d : Bytes} {pos : Nat} {j : ChunkId} (desc : String) (hj : j ≠ .header)
    (h : u32At d pos = some j.code) : ERd.readChunkId desc d pos = .ok (j, pos + 4) := by
  unfold ERd.readChunkId
  rw [bind_of_ok (reading_u32 desc h), ChunkId.ofCode_code hj]
  rfl

theorem readChunkId_unknown' {d : Bytes} {pos k : Nat} (desc : String) (hk : ¬ (1 ≤ k ∧ k ≤ 9))
    (h : u32At d pos = some k) : ERd.readChunkId desc d pos = .err (.unknownChunk k) := by
  unfold ERd.readChunkId
  rw [bind_of_ok (reading_u32 desc h), ofCode_eq_none.mpr hk]
  rfl

/-! ## C109 -/

/-- Specification: `m` reads a chunk with identifier `i` and says so if there is another identifier. -/
def Expects {α : Type} (m : ERd α) (i : ChunkId) : Prop :=
  ∀ d pos k, u32At d pos = some k →
    (¬ (1 ≤ k ∧ k ≤ 9) → m d pos = .err (.unknownChunk k)) ∧
    ∀ j : ChunkId, 1 ≤ j.code → j.code = k → j ≠ i →
      m d pos = .err (.format ("Invalid chunk identifier, expected: " ++ i.text ++ ", got: " ++ j.text))

theorem Expects.bind {α : Type} {i : ChunkId} {f : Unit → ERd α} : Expects (ERd.ensureChunkType i >>= f) i := by
  intro d pos k h
  constructor
  · intro hk
    refine bind_of_err ?_
    unfold ERd.ensureChunkType
    exact bind_of_err (readChunkId_unknown' _ hk h)
  · rintro j hj rfl hji
    refine bind_of_err ?_
    unfold ERd.ensureChunkType
    rw [bind_of_ok (readChunkId_known _ (by rintro rfl; exact absurd hj (by decide)) h), if_pos hji]
    rfl

theorem Expects.bindLeft {α β : Type} {i : ChunkId} {m : ERd α} {f : α → ERd β} (h : Expects m i) :
    Expects (m >>= f) i := fun d pos k hk =>
  ⟨fun h1 => bind_of_err ((h d pos k hk).1 h1), fun j h1 h2 h3 => bind_of_err ((h d pos k hk).2 j h1 h2 h3)⟩

/-- C109, identifiers: an unknown identifier is reported as a number; if the chunk is of another kind, both kinds are
reported. -/
theorem c109_identifiers_partial [ErrorText] {T : Type} [Toml T] :
    Expects readSimple .simpleVocab ∧
    Expects (ERd.readBucketed .bucketSubwordVocab : ERd BucketSubwordVocab) .bucketSubwordVocab ∧
    Expects (ERd.readBucketed .fastTextSubwordVocab : ERd FastTextSubwordVocab) .fastTextSubwordVocab ∧
    Expects ERd.readExplicit .explicitSubwordVocab ∧ Expects ERd.readFloret .floretSubwordVocab ∧
    Expects ERd.readNdArray .ndArray ∧ Expects ERd.mmapNdArray .ndArray ∧
    Expects ERd.readQuantizedArray .quantizedArray ∧ Expects ERd.mmapQuantizedArray .quantizedArray ∧
    Expects ERd.readNorms .ndNorms ∧ Expects (ERd.readMetadata : ERd (Metadata T)) .metadata :=
  ⟨.bind, .bind, .bind, .bind, .bind, Expects.bind.bindLeft, Expects.bind.bindLeft, Expects.bind.bindLeft,
    Expects.bind.bindLeft, .bind, .bind⟩

/-- Specification: the names of the kinds of chunks, by the numbers that files have for them. -/
def chunkName : Nat → String
  | 1 => "SimpleVocab"
  | 2 => "NdArray"
  | 3 => "BucketSubwordVocab"
  | 4 => "QuantizedArray"
  | 5 => "Metadata"
  | 6 => "NdNorms"
  | 7 => "FastTextSubwordVocab"
  | 8 => "ExplicitSubwordVocab"
  | 9 => "FloretSubwordVocab"
  | _ => "unknown"

/-- C109, identifiers, as they are displayed: together with `c109_identifiers_partial`, the texts for all readers. -/
theorem c109_display_partial {α : Type} {m : ERd α} {i : ChunkId} (hm : Expects m i) (hi : 1 ≤ i.code) (d : Bytes)
    (pos k : Nat) (h : u32At d pos = some k) (hk : k ≠ i.code) : ∃ e, m d pos = .err e ∧ e.text =
      if 1 ≤ k ∧ k ≤ 9 then "Invalid file format Invalid chunk identifier, expected: " ++ chunkName i.code ++ ", got: " ++
        chunkName k
      else "Unknown chunk identifier " ++ number k := by
  have hn : ∀ j : ChunkId, 1 ≤ j.code → j.text = chunkName j.code := by
    intro j hj
    cases j <;> first | rfl | exact absurd hj (by decide)
  by_cases hr : 1 ≤ k ∧ k ≤ 9
  · rw [if_pos hr]
    cases hc : ChunkId.ofCode k with
    | none => exact absurd hr (ofCode_eq_none.mp hc)
    | some j =>
      have hj : j.code = k := ofCode_eq_some hc
      refine ⟨_, (hm d pos k h).2 j (by omega) hj (by rintro rfl; exact hk hj.symm), ?_⟩
      rw [hn i hi, hn j (by omega), hj]
      show "Invalid file format " ++ ("Invalid chunk identifier, expected: " ++ chunkName i.code ++ ", got: " ++
        chunkName k) = _
      simp only [← String.append_assoc]
      rfl
  · rw [if_neg hr]
    exact ⟨_, (hm d pos k h).1 hr, rfl⟩

/-- Specification: `m` accepts several kinds of chunks, and of any other kind it says `before` and the kind it found. -/
def Selects {α : Type} (m : ERd α) (kinds : List ChunkId) (before : String) : Prop :=
  ∀ d pos k, u32At d pos = some k →
    (¬ (1 ≤ k ∧ k ≤ 9) → m d pos = .err (.unknownChunk k)) ∧
    ∀ j : ChunkId, 1 ≤ j.code → j.code = k → j ∉ kinds → m d pos = .err (.format (before ++ j.text))

theorem Selects.peek {α : Type} {desc : String} {f : ChunkId → ERd α} {kinds : List ChunkId} {before : String}
    (h : ∀ j, j ≠ .header → j ∉ kinds → f j = ERd.fail (.format (before ++ j.text))) :
    Selects (ERd.peekChunkId desc >>= f) kinds before := by
  intro d pos k hk
  constructor
  · intro h1
    refine bind_of_err ?_
    unfold ERd.peekChunkId
    rw [readChunkId_unknown' _ h1 hk]
  · rintro j h1 rfl hj
    have hj0 : j ≠ .header := by rintro rfl; exact absurd h1 (by decide)
    have : ERd.peekChunkId desc d pos = .ok (j, pos) := by
      unfold ERd.peekChunkId
      rw [readChunkId_known _ hj0 hk]
    rw [bind_of_ok this, h j hj0 hj]
    rfl

/-- C109, readers for several kinds of chunks: the kinds that are accepted and the kind that was found are reported. -/
theorem c109_choices_partial [ErrorText] :
    Selects ERd.readVocabWrap
      [.simpleVocab, .explicitSubwordVocab, .fastTextSubwordVocab, .floretSubwordVocab, .bucketSubwordVocab]
      ("Invalid chunk identifier, expected one of: SimpleVocab, ExplicitSubwordVocab, FastTextSubwordVocab, " ++
        "FloretSubwordVocab or BucketSubwordVocab, got: ") ∧
    Selects ERd.readStorageWrap [.ndArray, .quantizedArray]
      "Invalid chunk identifier, expected one of: NdArray or QuantizedArray, got: " ∧
    Selects ERd.readStorageViewWrap [.ndArray] "Invalid chunk identifier, expected: NdArray, got: " ∧
    Selects ERd.mmapStorageViewWrap [.ndArray] "Invalid chunk identifier, expected: NdArray, got: " := by
  refine ⟨.peek fun j h0 hj => ?_, .peek fun j h0 hj => ?_, .peek fun j h0 hj => ?_, .peek fun j h0 hj => ?_⟩ <;>
  · cases j <;> first | exact absurd rfl h0 | exact absurd hj (by decide) | rfl

/-! ## The header -/

theorem sliceAt_some_of_le {d : Bytes} {pos n : Nat} (h : pos + n ≤ d.length) : ∃ b, sliceAt d pos n = some b :=
  ⟨_, by unfold sliceAt; rw [if_pos h]⟩

theorem u32At_of_le {d : Bytes} {pos : Nat} (h : pos + 4 ≤ d.length) : ∃ k, u32At d pos = some k := by
  obtain ⟨b, hb⟩ := sliceAt_some_of_le h
  exact ⟨leVal b, by unfold u32At; rw [hb]; rfl⟩

theorem u64At_of_le {d : Bytes} {pos : Nat} (h : pos + 8 ≤ d.length) : ∃ k, u64At d pos = some k := by
  obtain ⟨b, hb⟩ := sliceAt_some_of_le h
  exact ⟨leVal b, by unfold u64At; rw [hb]; rfl⟩

theorem le_of_u32At {d : Bytes} {pos k : Nat} (h : u32At d pos = some k) : pos + 4 ≤ d.length := by
  unfold u32At sliceAt at h
  split at h
  · assumption
  · simp at h

theorem reading_exact {d bs : Bytes} {pos n : Nat} (desc : String) (h : sliceAt d pos n = some bs) :
    reading desc (Rd.readExact n) d pos = .ok (bs, pos + n) := by
  unfold reading named
  by_cases h0 : n = 0
  · subst h0
    have : bs = [] := by
      unfold sliceAt at h
      split at h <;> simp_all
    subst this
    unfold Rd.readExact
    rw [if_pos rfl]; rfl
  · rw [readExact_eq h0, h]; rfl

/-- C109, the beginning of a file: if it does not begin with "FiFu", the message has the text that is there; if the version
is not 0, it has the version. -/
theorem c109_header_partial (d : Bytes) (pos : Nat) :
    (∀ m, sliceAt d pos 4 = some m → m ≠ ascii "FiFu" →
      ERd.readHeader d pos = .err (.format ("Expected 'FiFu' as magic, got: " ++ String.ofList (utf8Lossy m)))) ∧
    (sliceAt d pos 4 = some (ascii "FiFu") → ∀ v, u32At d (pos + 4) = some v → v ≠ 0 →
      ERd.readHeader d pos = .err (.format ("Unknown finalfusion version: " ++ number v))) := by
  have hm : magic = ascii "FiFu" := by decide
  constructor
  · intro m h hne
    unfold ERd.readHeader
    rw [bind_of_ok (reading_exact _ h), if_pos (by rw [hm]; exact hne)]
    rfl
  · intro h v hv hne
    unfold ERd.readHeader
    rw [bind_of_ok (reading_exact _ h), if_neg (by rw [hm]; simp), bind_of_ok (reading_u32 _ hv), if_pos (show v ≠ modelVersion from hne)]
    rfl

/-- C109, a file whose header lists no chunks. -/
theorem c109_empty_partial {T : Type} [ErrorText] [Toml T] (d : Bytes) (pos : Nat)
    (h1 : sliceAt d pos 4 = some (ascii "FiFu")) (h2 : u32At d (pos + 4) = some 0) (h3 : u32At d (pos + 8) = some 0) :
    (ERd.readOptMetadata : ERd (Option (Metadata T))) d pos = .err (.format "Embedding file does not contain chunks") := by
  have hm : magic = ascii "FiFu" := by decide
  have : ERd.readHeader d pos = .ok (⟨[]⟩, pos + 12) := by
    unfold ERd.readHeader
    rw [bind_of_ok (reading_exact _ h1), if_neg (by rw [hm]; simp), bind_of_ok (reading_u32 _ h2), if_neg (by decide),
      bind_of_ok (reading_u32 _ h3)]
    rfl
  unfold ERd.readOptMetadata
  rw [bind_of_ok this]
  rfl

/-! ## Types of values -/

theorem ensureChunkType_passes {d : Bytes} {pos : Nat} {i : ChunkId} (hi : i ≠ .header) (h : u32At d pos = some i.code) :
    ERd.ensureChunkType i d pos = .ok ((), pos + 4) := by
  unfold ERd.ensureChunkType
  rw [bind_of_ok (readChunkId_known _ hi h), if_neg (by simp)]
  rfl

theorem ensureDataType_tells {d : Bytes} {pos t tid : Nat} (h : u32At d pos = some t) (ht : t ≠ tid) :
    ERd.ensureDataType tid d pos =
      .err (.format ("Invalid type, expected: " ++ number tid ++ ", got: " ++ number t)) := by
  unfold ERd.ensureDataType
  rw [bind_of_ok (reading_u32 _ h), if_pos ht]
  rfl

theorem ensureDataType_passes {d : Bytes} {pos tid : Nat} (h : u32At d pos = some tid) :
    ERd.ensureDataType tid d pos = .ok ((), pos + 4) := by
  unfold ERd.ensureDataType
  rw [bind_of_ok (reading_u32 _ h), if_neg (by simp)]
  rfl

theorem readNdArrayHead_type {d : Bytes} {pos t : Nat} (h1 : u32At d pos = some 2) (h2 : u32At d (pos + 24) = some t)
    (ht : t ≠ 10) : ERd.readNdArrayHead d pos = .err (.format ("Invalid type, expected: 10, got: " ++ number t)) := by
  have hl := le_of_u32At h2
  obtain ⟨_, h3⟩ := u64At_of_le (d := d) (pos := pos + 4) (by omega)
  obtain ⟨_, h4⟩ := u64At_of_le (d := d) (pos := pos + 12) (by omega)
  obtain ⟨_, h5⟩ := u32At_of_le (d := d) (pos := pos + 20) (by omega)
  unfold ERd.readNdArrayHead
  rw [bind_of_ok (ensureChunkType_passes (by decide) h1), bind_of_ok (reading_u64 _ h3), bind_of_ok (reading_u64 _ h4),
    bind_of_ok (reading_u32 _ h5)]
  exact bind_of_err (ensureDataType_tells h2 ht)

/-- C109, types of values: for matrices (read or mapped) and norms, the message has both types. -/
theorem c109_types_partial (d : Bytes) (pos t : Nat) (ht : t ≠ 10) :
    (u32At d pos = some 2 → u32At d (pos + 24) = some t →
      ERd.readNdArray d pos = .err (.format ("Invalid type, expected: 10, got: " ++ number t)) ∧
      ERd.mmapNdArray d pos = .err (.format ("Invalid type, expected: 10, got: " ++ number t))) ∧
    (u32At d pos = some 6 → u32At d (pos + 20) = some t →
      ERd.readNorms d pos = .err (.format ("Invalid type, expected: 10, got: " ++ number t))) := by
  constructor
  · intro h1 h2
    exact ⟨bind_of_err (readNdArrayHead_type h1 h2 ht), bind_of_err (readNdArrayHead_type h1 h2 ht)⟩
  · intro h1 h2
    have hl := le_of_u32At h2
    obtain ⟨_, h3⟩ := u64At_of_le (d := d) (pos := pos + 4) (by omega)
    obtain ⟨_, h4⟩ := u64At_of_le (d := d) (pos := pos + 12) (by omega)
    unfold ERd.readNorms
    rw [bind_of_ok (ensureChunkType_passes (by decide) h1), bind_of_ok (reading_u64 _ h3), bind_of_ok (reading_u64 _ h4)]
    exact bind_of_err (ensureDataType_tells h2 ht)

/-- The first fields of a quantized matrix. -/
theorem readPq_start {d : Bytes} {pos q r : Nat} (hl : pos + 28 ≤ d.length) (hq : u32At d (pos + 8) = some q)
    (hr : u32At d (pos + 12) = some r) : ∃ a b c n, ERd.readPq d pos = (do
      ERd.checkQuantizerInvariants q r
      ERd.ensureDataType u8TypeId
      ERd.ensureDataType f32TypeId
      let proj ← ERd.readProjection a r
      let qs ← ERd.readQuantizers q c (r / q)
      let pq ← quiet (Rd.lift (Pq.new proj c (r / q) qs))
      return ⟨n, pq, decide (b ≠ 0)⟩ : ERd PqRead) d (pos + 28) := by
  obtain ⟨a, h1⟩ := u32At_of_le (d := d) (pos := pos) (by omega)
  obtain ⟨b, h2⟩ := u32At_of_le (d := d) (pos := pos + 4) (by omega)
  obtain ⟨c, h3⟩ := u32At_of_le (d := d) (pos := pos + 16) (by omega)
  obtain ⟨n, h4⟩ := u64At_of_le (d := d) (pos := pos + 20) (by omega)
  refine ⟨a, b, c, n, ?_⟩
  unfold ERd.readPq
  rw [bind_of_ok (reading_u32 _ h1), bind_of_ok (reading_u32 _ h2), bind_of_ok (reading_u32 _ hq),
    bind_of_ok (reading_u32 _ hr), bind_of_ok (reading_u32 _ h3), bind_of_ok (reading_u64 _ h4)]

theorem readQuantizedHead_err {d : Bytes} {pos : Nat} {e : Error} (h1 : u32At d pos = some 4) (hl : pos + 12 ≤ d.length)
    (h : ERd.readPq d (pos + 12) = .err e) : ERd.readQuantizedHead d pos = .err e := by
  obtain ⟨_, h2⟩ := u64At_of_le (d := d) (pos := pos + 4) (by omega)
  unfold ERd.readQuantizedHead
  rw [bind_of_ok (ensureChunkType_passes (by decide) h1), bind_of_ok (reading_u64 _ h2)]
  exact bind_of_err h

theorem checkQuantizerInvariants_eq {d : Bytes} {pos q r : Nat} (hq : q ≠ 0) :
    ERd.checkQuantizerInvariants q r d pos = if r % q ≠ 0 then
      .err (.format ("Reconstructed embedding length (" ++ number q ++
        ") not a multiple of the quantized embedding length: (" ++ number r ++ ")")) else .ok ((), pos) := by
  unfold ERd.checkQuantizerInvariants
  have : quiet (Rd.lift (Res.assert (decide (q ≠ 0)))) d pos = .ok ((), pos) := by
    rw [decide_eq_true hq]; rfl
  rw [bind_of_ok this]
  split <;> rfl

/-- C109, types of values of quantized matrices, read or mapped: the message has both types. -/
theorem c109_quantized_types_partial (d : Bytes) (pos q r t : Nat) (h1 : u32At d pos = some 4)
    (hq : u32At d (pos + 20) = some q) (hr : u32At d (pos + 24) = some r) (h0 : q ≠ 0) (hqr : q ∣ r) :
    (u32At d (pos + 40) = some t → t ≠ 1 →
      ERd.readQuantizedArray d pos = .err (.format ("Invalid type, expected: 1, got: " ++ number t)) ∧
      ERd.mmapQuantizedArray d pos = .err (.format ("Invalid type, expected: 1, got: " ++ number t))) ∧
    (u32At d (pos + 40) = some 1 → u32At d (pos + 44) = some t → t ≠ 10 →
      ERd.readQuantizedArray d pos = .err (.format ("Invalid type, expected: 10, got: " ++ number t)) ∧
      ERd.mmapQuantizedArray d pos = .err (.format ("Invalid type, expected: 10, got: " ++ number t))) := by
  have hc : ∀ p, ERd.checkQuantizerInvariants q r d p = .ok ((), p) := fun p => by
    rw [checkQuantizerInvariants_eq h0, if_neg (by simp [Nat.mod_eq_zero_of_dvd hqr])]
  constructor
  · intro h2 ht
    have hl := le_of_u32At h2
    obtain ⟨a, b, c, n, h3⟩ := readPq_start (d := d) (pos := pos + 12) (by omega) hq hr
    have h4 : ERd.readQuantizedHead d pos = .err (.format ("Invalid type, expected: 1, got: " ++ number t)) := by
      refine readQuantizedHead_err h1 (by omega) ?_
      rw [h3, bind_of_ok (hc _)]
      exact bind_of_err (ensureDataType_tells h2 ht)
    exact ⟨bind_of_err h4, bind_of_err h4⟩
  · intro h2 h5 ht
    have hl := le_of_u32At h5
    obtain ⟨a, b, c, n, h3⟩ := readPq_start (d := d) (pos := pos + 12) (by omega) hq hr
    have h4 : ERd.readQuantizedHead d pos = .err (.format ("Invalid type, expected: 10, got: " ++ number t)) := by
      refine readQuantizedHead_err h1 (by omega) ?_
      rw [h3, bind_of_ok (hc _), bind_of_ok (ensureDataType_passes (tid := u8TypeId) h2)]
      exact bind_of_err (ensureDataType_tells h5 ht)
    exact ⟨bind_of_err h4, bind_of_err h4⟩

/-! ## Lengths of quantized matrices -/

theorem append_sep_cancel {α : Type} {x : α} : ∀ {a b s t : List α}, x ∉ a → x ∉ b → a ++ x :: s = b ++ x :: t → a = b
  | [], [], _, _, _, _, _ => rfl
  | [], y :: b, _, _, _, hb, h => by
    simp only [List.nil_append, List.cons_append, List.cons.injEq] at h
    exact absurd h.1 fun h => hb (by simp [h])
  | y :: a, [], _, _, ha, _, h => by
    simp only [List.nil_append, List.cons_append, List.cons.injEq] at h
    exact absurd h.1.symm fun h => ha (by simp [h])
  | y :: a, z :: b, _, _, ha, hb, h => by
    simp only [List.cons_append, List.cons.injEq] at h
    rw [h.1, append_sep_cancel (fun h' => ha (by simp [h'])) (fun h' => hb (by simp [h'])) h.2]

theorem printNat_inj {m n : Nat} (h : printNat m = printNat n) : m = n := by
  have h1 := digitsVal_printNatF (m + 1) m (by omega)
  have h2 := digitsVal_printNatF (n + 1) n (by omega)
  have : printNatF (m + 1) m = printNatF (n + 1) n := h
  rw [this, h2] at h1
  exact h1.symm

/-- Specification: the sentence about the lengths of a quantized matrix. -/
def lengthsMessage (reconstructed quantized : Nat) : String :=
  "Reconstructed embedding length (" ++ number reconstructed ++
    ") not a multiple of the quantized embedding length: (" ++ number quantized ++ ")"

theorem lengthsMessage_inj {a b x y : Nat} (h : lengthsMessage a x = lengthsMessage b y) : a = b := by
  unfold lengthsMessage number at h
  have h := congrArg String.toList h
  simp only [String.toList_append, String.toList_ofList, List.append_assoc, List.append_cancel_left_eq] at h
  have hd : ∀ n, ')' ∉ printNat n := fun n hm => absurd (printNat_digits n _ hm) (by decide)
  exact printNat_inj (append_sep_cancel (hd a) (hd b) h)

/-- C109, lengths of quantized matrices: both lengths are reported, but each in the place of the other. So the message is
always a wrong one. -/
theorem c109_lengths_false (d : Bytes) (pos q r : Nat) (hl : pos + 40 ≤ d.length) (h1 : u32At d pos = some 4)
    (hq : u32At d (pos + 20) = some q) (hr : u32At d (pos + 24) = some r) (h0 : q ≠ 0) (hqr : ¬ q ∣ r) :
    ERd.readQuantizedArray d pos = .err (.format (lengthsMessage q r)) ∧
    ERd.mmapQuantizedArray d pos = .err (.format (lengthsMessage q r)) ∧ lengthsMessage q r ≠ lengthsMessage r q := by
  have h4 : ERd.readQuantizedHead d pos = .err (.format (lengthsMessage q r)) := by
    refine readQuantizedHead_err h1 (by omega) ?_
    obtain ⟨a, b, c, n, h3⟩ := readPq_start (d := d) (pos := pos + 12) (by omega) hq hr
    rw [h3]
    refine bind_of_err ?_
    rw [checkQuantizerInvariants_eq h0, if_pos (fun h => hqr (Nat.dvd_of_mod_eq_zero h))]
    rfl
  refine ⟨bind_of_err h4, bind_of_err h4, fun h => hqr ?_⟩
  rw [lengthsMessage_inj h]
  exact Nat.dvd_refl _

/-! ## Other fields -/

/-- C109, the number of hashes of a floret vocabulary: the message has the number that was found. -/
theorem c109_hashes_partial [ErrorText] (d : Bytes) (pos n : Nat) (h1 : u32At d pos = some 9)
    (h2 : u32At d (pos + 28) = some n) (hn : n = 0 ∨ 4 < n) : ERd.readFloret d pos =
      .err (.read ("Number of hashes should be in be more than 0 and less than 5, was: " ++ number n)) := by
  have hl := le_of_u32At h2
  obtain ⟨_, h3⟩ := u64At_of_le (d := d) (pos := pos + 4) (by omega)
  obtain ⟨_, h4⟩ := u32At_of_le (d := d) (pos := pos + 12) (by omega)
  obtain ⟨_, h5⟩ := u32At_of_le (d := d) (pos := pos + 16) (by omega)
  obtain ⟨_, h6⟩ := u64At_of_le (d := d) (pos := pos + 20) (by omega)
  unfold ERd.readFloret
  rw [bind_of_ok (ensureChunkType_passes (by decide) h1), bind_of_ok (reading_u64 _ h3), bind_of_ok (reading_u32 _ h4),
    bind_of_ok (reading_u32 _ h5), bind_of_ok (reading_u64 _ h6), bind_of_ok (reading_u32 _ h2), if_pos (by omega)]
  rfl

/-- C109, words and markers that are not text, and metadata that is not text. -/
theorem c109_text_partial {T : Type} [ErrorText] [Toml T] (d bs : Bytes) (pos n : Nat) (hbs : ∀ s, utf8 s ≠ bs) :
    (u32At d pos = some n → sliceAt d (pos + 4) n = some bs →
      ERd.readString d pos = .err (.format ("Item contains invalid UTF-8: " ++ ErrorText.utf8 bs))) ∧
    (u32At d pos = some 5 → u64At d (pos + 4) = some n → n ≤ isizeMax → sliceAt d (pos + 12) n = some bs →
      (ERd.readMetadata : ERd (Metadata T)) d pos =
        .err (.format ("TOML metadata contains invalid UTF-8: " ++ ErrorText.utf8 bs))) := by
  have hn : utf8Decode bs = none := by
    cases h : utf8Decode bs with
    | none => rfl
    | some s => exact absurd (utf8_of_utf8Decode h) (hbs s)
  constructor
  · intro h1 h2
    have ha : quiet (Rd.alloc 1 n) d (pos + 4) = .ok ((), pos + 4) := by
      have := u32At_lt h1
      unfold quiet named Rd.alloc
      rw [decide_eq_true (by unfold isizeMax; omega)]; rfl
    unfold ERd.readString
    rw [bind_of_ok (reading_u32 _ h1), bind_of_ok ha, bind_of_ok (reading_exact _ h2)]
    unfold ERd.decodeItem named
    rw [hn]; rfl
  · intro h1 h2 h3 h4
    have ha : quiet (Rd.alloc 1 n) d (pos + 12) = .ok ((), pos + 12) := by
      unfold quiet named Rd.alloc
      rw [decide_eq_true (by omega)]; rfl
    unfold ERd.readMetadata
    rw [bind_of_ok (ensureChunkType_passes (by decide) h1), bind_of_ok (reading_u64 _ h2), bind_of_ok ha,
      bind_of_ok (reading_exact _ h4)]
    refine bind_of_err ?_
    unfold named
    rw [hn]; rfl

/-- C109, metadata that is text but not TOML. -/
theorem c109_toml_partial {T : Type} [ErrorText] [Toml T] (d : Bytes) (s : Str) (pos n : Nat) (h1 : u32At d pos = some 5)
    (h2 : u64At d (pos + 4) = some n) (h3 : n ≤ isizeMax) (h4 : sliceAt d (pos + 12) n = some (utf8 s))
    (h5 : (Toml.parse s : Option T) = none) :
    (ERd.readMetadata : ERd (Metadata T)) d pos =
      .err (.format ("Cannot deserialize TOML metadata: " ++ ErrorText.toml s)) := by
  have ha : quiet (Rd.alloc 1 n) d (pos + 12) = .ok ((), pos + 12) := by
    unfold quiet named Rd.alloc
    rw [decide_eq_true (by omega)]; rfl
  have hs : named (.format ("TOML metadata contains invalid UTF-8: " ++ ErrorText.utf8 (utf8 s)))
      (Rd.lift (Res.ofOption .format (utf8Decode (utf8 s)))) d (pos + 12 + n) = .ok (s, pos + 12 + n) := by
    rw [utf8Decode_utf8]; rfl
  unfold ERd.readMetadata
  rw [bind_of_ok (ensureChunkType_passes (by decide) h1), bind_of_ok (reading_u64 _ h2), bind_of_ok ha,
    bind_of_ok (reading_exact _ h4), bind_of_ok hs]
  refine bind_of_err ?_
  unfold named
  rw [h5]; rfl

/-- C109, matrices that are too large to be mapped: for a matrix, from its numbers of rows and columns; for a quantized matrix,
if everything before the codes is accepted. -/
theorem c109_map_partial (d : Bytes) (pos : Nat) :
    (∀ r c, u32At d pos = some 2 → u64At d (pos + 12) = some r → u32At d (pos + 20) = some c →
      u32At d (pos + 24) = some 10 → isizeMax < 4 * (r * c) → 4 * (r * c) ≤ usizeMax →
      ERd.mmapNdArray d pos = .err (.read "Cannot memory map embedding matrix")) ∧
    (∀ r q, FF.readQuantizedHead d pos = .ok (r, q) → isizeMax < r.1.nEmbeddings * r.1.quantizer.quantizedLen →
      r.1.nEmbeddings * r.1.quantizer.quantizedLen ≤ usizeMax →
      ERd.mmapQuantizedArray d pos = .err (.read "Cannot memory map quantized embedding matrix")) := by
  have ha : ∀ n p, n ≤ usizeMax → quiet (Rd.lift (Res.assert (decide (n ≤ usizeMax)))) d p = .ok ((), p) := by
    intro n p h; rw [decide_eq_true h]; rfl
  have hm : ∀ desc n p, isizeMax < n → reading desc (mapRegion n) d p = .err (.read desc) := by
    intro desc n p h
    unfold reading named mapRegion
    rw [if_neg (by omega)]
  constructor
  · intro r c h1 h2 h3 h4 h5 h6
    have hl := le_of_u32At h4
    obtain ⟨_, h7⟩ := u64At_of_le (d := d) (pos := pos + 4) (by omega)
    have hh : ∃ q, ERd.readNdArrayHead d pos = .ok ((r, c), q) := by
      unfold ERd.readNdArrayHead
      rw [bind_of_ok (ensureChunkType_passes (by decide) h1), bind_of_ok (reading_u64 _ h7), bind_of_ok (reading_u64 _ h2),
        bind_of_ok (reading_u32 _ h3), bind_of_ok (ensureDataType_passes (tid := f32TypeId) h4)]
      exact ⟨_, rfl⟩
    obtain ⟨q, hq⟩ := hh
    have h8 : r * c * 4 = 4 * (r * c) := Nat.mul_comm _ _
    unfold ERd.mmapNdArray
    rw [bind_of_ok hq]
    refine (bind_of_ok (ha _ _ (by omega))).trans ?_
    exact bind_of_err (hm _ _ _ (by omega))
  · rintro ⟨r, ns⟩ q h1 h2 h3
    have hq : ERd.readQuantizedHead d pos = .ok ((r, ns), q) := ok_of_kinds ((kindOf_quantizedHead d pos).trans h1)
    unfold ERd.mmapQuantizedArray
    rw [bind_of_ok hq]
    refine (bind_of_ok (ha _ _ h3)).trans ?_
    exact bind_of_err (hm _ _ _ h2)

/-- C109 is false: the mapped storage accepts quantized matrices as well, but only mentions matrices. -/
theorem c109_mmap_storage_false :
    Selects ERd.mmapStorageWrap [.ndArray, .quantizedArray] "Invalid chunk identifier, expected: NdArray, got: " ∧
    ∃ d r, ERd.mmapStorageWrap d 0 = .ok r ∧ u32At d 0 = some ChunkId.quantizedArray.code := by
  constructor
  · refine .peek fun j h0 hj => ?_
    cases j <;> first | exact absurd rfl h0 | exact absurd hj (by decide) | rfl
  · have h : (ERd.mmapStorageWrap (writeChunk exampleQuantized 0).bytes 0).kinds.map (·.2) = .ok 166 ∧
        u32At (writeChunk exampleQuantized 0).bytes 0 = some 4 := by decide +kernel
    obtain ⟨r, hr, _⟩ := Res.map_eq_ok.mp h.1
    exact ⟨_, r, ok_of_kinds hr, h.2⟩

/-- C109 is false: a quantized matrix of vectors of length 3 in 2 parts is refused with a sentence that says that the vectors
have length 2 and 3 parts. The description of the field with the number of centroids calls it the number of subquantizers:
of data that ends in that field (bytes 28 to 31) this is what is said. -/
theorem c109_false :
    (∃ d, u32At d 20 = some 2 ∧ u32At d 24 = some 3 ∧
      ERd.readQuantizedArray d 0 = .err (.format ("Reconstructed embedding length (2) not a multiple of the quantized " ++
        "embedding length: (3)"))) ∧
    ERd.readQuantizedArray ((writeChunk exampleQuantized 0).bytes.take 30) 0 =
      .err (.read "Cannot read number of subquantizers") ∧
    ∃ d, u32At d 0 = some 6 ∧
      ERd.mmapStorageWrap d 0 = .err (.format "Invalid chunk identifier, expected: NdArray, got: NdNorms") := by
  refine ⟨⟨le32 4 ++ le64 0 ++ le32 0 ++ le32 0 ++ le32 2 ++ le32 3 ++ le32 2 ++ le64 5, ?_⟩, ?_, ⟨le32 6, ?_⟩⟩ <;>
    decide +kernel

/-! ## Examples -/

/-- The hypotheses of `c109_lengths_false`. -/
example := c109_lengths_false (le32 4 ++ le64 0 ++ le32 0 ++ le32 0 ++ le32 2 ++ le32 3 ++ le32 2 ++ le64 5) 0 2 3
  (by decide +kernel) (by decide +kernel) (by decide +kernel) (by decide +kernel) (by decide) (by decide)

/-- The hypotheses of `c109_identifiers_partial` and `c109_choices_partial`: norms where another chunk is expected, and an
unknown identifier. -/
example := (@c109_identifiers_partial exampleErrorText _ exampleToml).1 (le32 6) 0 6 (by decide +kernel)
example := (@c109_choices_partial exampleErrorText).1 (le32 10) 0 10 (by decide +kernel)
example : @ERd.readVocabWrap exampleErrorText (le32 6) 0 = .err (.format ("Invalid chunk identifier, expected one of: " ++
    "SimpleVocab, ExplicitSubwordVocab, FastTextSubwordVocab, FloretSubwordVocab or BucketSubwordVocab, got: NdNorms")) ∧
    @ERd.readVocabWrap exampleErrorText (le32 10) 0 = .err (.unknownChunk 10) ∧
    (Error.unknownChunk 10).text = "Unknown chunk identifier 10" := by
  decide +kernel

example := c109_display_partial (@c109_identifiers_partial exampleErrorText _ exampleToml).1 (by decide) (le32 6) 0 6
  (by decide +kernel) (by decide)

/-- The hypotheses of `c109_header_partial` and `c109_empty_partial`. -/
example := (c109_header_partial (ascii "GIF8") 0).1 (ascii "GIF8") (by decide +kernel) (by decide +kernel)
example := (c109_header_partial (ascii "FiFu" ++ le32 3) 0).2 (by decide +kernel) 3 (by decide +kernel) (by decide)
example := @c109_empty_partial _ exampleErrorText exampleToml (ascii "FiFu" ++ le32 0 ++ le32 0) 0 (by decide +kernel)
  (by decide +kernel) (by decide +kernel)

/-- The hypotheses of `c109_types_partial` and `c109_quantized_types_partial`. -/
example := (c109_types_partial (le32 2 ++ le64 0 ++ le64 1 ++ le32 1 ++ le32 11) 0 11 (by decide)).1 (by decide +kernel)
  (by decide +kernel)
example := (c109_types_partial (le32 6 ++ le64 0 ++ le64 1 ++ le32 1) 0 1 (by decide)).2 (by decide +kernel)
  (by decide +kernel)
example := (c109_quantized_types_partial (le32 4 ++ le64 0 ++ le32 0 ++ le32 0 ++ le32 2 ++ le32 4 ++ le32 2 ++ le64 5 ++
  le32 1 ++ le32 11) 0 2 4 11 (by decide +kernel) (by decide +kernel) (by decide +kernel) (by decide) ⟨2, rfl⟩).2
  (by decide +kernel) (by decide +kernel) (by decide)

/-- The hypotheses of `c109_hashes_partial`. -/
example := @c109_hashes_partial exampleErrorText (le32 9 ++ le64 0 ++ le32 3 ++ le32 6 ++ le64 100 ++ le32 5) 0 5
  (by decide +kernel) (by decide +kernel) (.inr (by decide))

/-- The hypotheses of `c109_text_partial`: the byte 255 is not text. -/
example := (@c109_text_partial _ exampleErrorText exampleToml (le32 1 ++ [255]) [255] 0 1 (by
  intro s hs
  have := utf8Decode_utf8 s
  rw [hs] at this
  rw [show utf8Decode [255] = none by decide +kernel] at this
  cases this)).1 (by decide +kernel) (by decide +kernel)

/-- The hypotheses of `c109_toml_partial`, for TOML of which only the empty text is not accepted, and for TOML without text. -/
example := @c109_toml_partial Str exampleErrorText ⟨id, fun s => if s = [] then none else some s⟩
  (le32 5 ++ le64 0) [] 0 0 (by decide +kernel) (by decide +kernel) (by decide) (by decide +kernel) rfl
example := @c109_toml_partial Str exampleErrorText ⟨id, fun _ => none⟩ (le32 5 ++ le64 2 ++ utf8 ['a', '=']) ['a', '='] 0 2
  (by decide +kernel) (by decide +kernel) (by decide) (by decide +kernel) rfl

/-- The hypotheses of `c109_map_partial`: a matrix of 2^60 rows with two columns, and as many vectors with eight parts. -/
example := (c109_map_partial (le32 2 ++ le64 0 ++ le64 (2 ^ 60) ++ le32 2 ++ le32 10) 0).1 (2 ^ 60) 2 (by decide +kernel)
  (by decide +kernel) (by decide +kernel) (by decide +kernel) (by decide) (by decide)
example : (FF.readQuantizedHead (le32 4 ++ le64 0 ++ le32 0 ++ le32 0 ++ le32 8 ++ le32 8 ++ le32 1 ++ le64 (2 ^ 60) ++
      le32 1 ++ le32 10 ++ le32 0 ++ floats [1, 2, 3, 4, 5, 6, 7, 8]) 0).map
      (fun r => decide (isizeMax < r.1.1.nEmbeddings * r.1.1.quantizer.quantizedLen ∧
        r.1.1.nEmbeddings * r.1.1.quantizer.quantizedLen ≤ usizeMax)) = .ok true := by
  decide +kernel

end FF
