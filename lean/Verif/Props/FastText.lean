import Verif.Lemmas.FastText
import Verif.Lemmas.ReadAt
import Verif.Props.Text
import Verif.Props.Floret

/-!
# Properties of the fastText format

* C53: which files are accepted, which are rejected with an error, which panic.
* C55: the strict and the lossy reader.
* C61: what the vectors of the words are after reading.
* C52 (bytes): what is written is read back.
-/

namespace FF

open Rd

/-! ## The layout of a fastText file -/

/-- The numbers at the beginning of a fastText file. -/
structure FtHead where
  magic : Nat
  version : Nat
  dims : Nat
  windowSize : Nat
  epoch : Nat
  minCount : Nat
  neg : Nat
  wordNgrams : Nat
  loss : Nat
  model : Nat
  bucket : Nat
  minN : Nat
  maxN : Nat
  lrUpdateRate : Nat
  samplingThreshold : Nat
  size : Nat
  nWords : Nat
  nLabels : Nat
  nTokens : Nat
  prune : Nat
deriving DecidableEq, Repr

namespace FtHead

/-- Bytes of magic and version. -/
def magicBytes (h : FtHead) : Bytes := leBytes 4 h.magic ++ leBytes 4 h.version

/-- Bytes of the training parameters. -/
def configBytes (h : FtHead) : Bytes :=
  leBytes 4 h.dims ++ (leBytes 4 h.windowSize ++ (leBytes 4 h.epoch ++ (leBytes 4 h.minCount ++ (leBytes 4 h.neg ++
  (leBytes 4 h.wordNgrams ++ (leBytes 4 h.loss ++ (leBytes 4 h.model ++ (leBytes 4 h.bucket ++ (leBytes 4 h.minN ++
  (leBytes 4 h.maxN ++ (leBytes 4 h.lrUpdateRate ++ leBytes 8 h.samplingThreshold)))))))))))

/-- Bytes of the vocabulary sizes. -/
def vocabBytes (h : FtHead) : Bytes :=
  leBytes 4 h.size ++ (leBytes 4 h.nWords ++ (leBytes 4 h.nLabels ++ (leBytes 8 h.nTokens ++ leBytes 8 h.prune)))

/-- All bytes. -/
def bytes (h : FtHead) : Bytes := h.magicBytes ++ (h.configBytes ++ h.vocabBytes)

/-- Every number fits into its field. -/
structure Fits (h : FtHead) : Prop where
  magic : h.magic < 2 ^ 32
  version : h.version < 2 ^ 32
  dims : h.dims < 2 ^ 32
  windowSize : h.windowSize < 2 ^ 32
  epoch : h.epoch < 2 ^ 32
  minCount : h.minCount < 2 ^ 32
  neg : h.neg < 2 ^ 32
  wordNgrams : h.wordNgrams < 2 ^ 32
  loss : h.loss < 2 ^ 32
  model : h.model < 2 ^ 32
  bucket : h.bucket < 2 ^ 32
  minN : h.minN < 2 ^ 32
  maxN : h.maxN < 2 ^ 32
  lrUpdateRate : h.lrUpdateRate < 2 ^ 32
  samplingThreshold : h.samplingThreshold < 2 ^ 64
  size : h.size < 2 ^ 32
  nWords : h.nWords < 2 ^ 32
  nLabels : h.nLabels < 2 ^ 32
  nTokens : h.nTokens < 2 ^ 64
  prune : h.prune < 2 ^ 64

/-- A model the crate supports: the fastText magic number, version at most 12, known loss and model, no labels,
vocabulary not pruned (a negative number, as 64-bit two's complement). -/
structure Supported (h : FtHead) : Prop where
  magic : h.magic = 793712314
  version : h.version ≤ 12
  loss : 1 ≤ h.loss ∧ h.loss ≤ 3
  model : 1 ≤ h.model ∧ h.model ≤ 3
  nLabels : h.nLabels = 0
  prune : 2 ^ 63 ≤ h.prune

/-- The configuration, as it ends up in the metadata. -/
def config (h : FtHead) : FtConfig :=
  { dims := h.dims, windowSize := h.windowSize, epoch := h.epoch, minCount := h.minCount, neg := h.neg,
    wordNgrams := h.wordNgrams,
    loss := if h.loss = 1 then .hierarchicalSoftmax else if h.loss = 2 then .negativeSampling else .softmax,
    model := if h.model = 1 then .cbow else if h.model = 2 then .skipGram else .supervised,
    bucket := h.bucket, minN := h.minN, maxN := h.maxN, lrUpdateRate := h.lrUpdateRate,
    samplingThreshold := h.samplingThreshold }

end FtHead

/-- An entry of the vocabulary. -/
structure FtEntry where
  word : Bytes
  freq : Nat
  kind : Nat
deriving DecidableEq, Repr

/-- Bytes of an entry. -/
def FtEntry.bytes (e : FtEntry) : Bytes := e.word ++ [0] ++ (leBytes 8 e.freq ++ leBytes 1 e.kind)

/-- An entry is a word: no NUL byte inside, kind 0. -/
structure FtEntry.IsWord (e : FtEntry) : Prop where
  word : (0 : UInt8) ∉ e.word
  freq : e.freq < 2 ^ 64
  kind : e.kind = 0

/-! ## Reading -/

/-- Between positions `p` and `q` the data has the bytes `bs`. -/
def Took (d : Bytes) (p q : Nat) (bs : Bytes) : Prop := d.drop p = bs ++ d.drop q ∧ q = p + bs.length

theorem Took.append {d : Bytes} {p q r : Nat} {a b : Bytes} (h₁ : Took d p q a) (h₂ : Took d q r b) :
    Took d p r (a ++ b) := by
  refine ⟨by rw [h₁.1, h₂.1, List.append_assoc], ?_⟩
  rw [h₂.2, h₁.2, List.length_append]; omega

theorem Took.nil (d : Bytes) (p : Nat) : Took d p p [] := ⟨rfl, rfl⟩

theorem readExact_took {n : Nat} {d bs : Bytes} {p q : Nat} (h : readExact n d p = .ok (bs, q)) :
    bs.length = n ∧ Took d p q bs := by
  obtain ⟨h1, h2, h3⟩ := readExact_ok h
  have hl : bs.length = n := by
    by_cases hn : n = 0
    · rw [h2, hn]; simp
    · have := h3 hn
      rw [h2]; simp; omega
  refine ⟨hl, ?_, by rw [hl]; exact h1⟩
  rw [h1, h2, ← List.drop_drop, List.take_append_drop]

theorem readU32_took {d : Bytes} {p q v : Nat} (h : readU32 d p = .ok (v, q)) :
    v < 2 ^ 32 ∧ Took d p q (leBytes 4 v) := by
  unfold readU32 at h
  obtain ⟨bs, p1, h1, h2⟩ := Rd.bind_ok.mp h
  obtain ⟨hl, ht⟩ := readExact_took h1
  cases h2
  have := leVal_lt bs
  have e := leBytes_leVal bs
  rw [hl] at this e
  rw [e]
  exact ⟨by simpa using this, ht⟩

theorem readU64_took {d : Bytes} {p q v : Nat} (h : readU64 d p = .ok (v, q)) :
    v < 2 ^ 64 ∧ Took d p q (leBytes 8 v) := by
  unfold readU64 at h
  obtain ⟨bs, p1, h1, h2⟩ := Rd.bind_ok.mp h
  obtain ⟨hl, ht⟩ := readExact_took h1
  cases h2
  have := leVal_lt bs
  have e := leBytes_leVal bs
  rw [hl] at this e
  rw [e]
  exact ⟨by simpa using this, ht⟩

theorem encodeF32s_decodeF32s (n : Nat) {bs : Bytes} (h : bs.length = 4 * n) : encodeF32s (decodeF32s n bs) = bs := by
  induction n generalizing bs with
  | zero => simpa [decodeF32s] using (List.length_eq_zero_iff.mp (by omega)).symm
  | succ n ih =>
    simp only [decodeF32s, encodeF32s_cons]
    rw [ih (by simp; omega)]
    have hl : (bs.take 4).length = 4 := by simp; omega
    have : f32Bytes (f32Val (bs.take 4)) = bs.take 4 := by
      have e := leBytes_leVal (bs.take 4)
      have hlt := leVal_lt (bs.take 4)
      rw [hl] at e hlt
      unfold f32Bytes f32Val
      rw [UInt32.toNat_ofNat', Nat.mod_eq_of_lt (by simpa using hlt), e]
    rw [this, List.take_append_drop]

theorem readF32s_took {n : Nat} {d : Bytes} {p q : Nat} {xs : List F32} (h : readF32s n d p = .ok (xs, q)) :
    xs.length = n ∧ Took d p q (encodeF32s xs) := by
  unfold readF32s at h
  obtain ⟨bs, p1, h1, h2⟩ := Rd.bind_ok.mp h
  obtain ⟨hl, ht⟩ := readExact_took h1
  cases h2
  rw [encodeF32s_decodeF32s n hl]
  exact ⟨by simp, ht⟩

theorem replicateM_took {α β : Type} {p : Rd α} {d : Bytes} {enc : β → Bytes} {P : α → β → Prop}
    (hp : ∀ pos q a, p d pos = .ok (a, q) → ∃ b, P a b ∧ Took d pos q (enc b)) {n pos q : Nat} {as : List α}
    (h : replicateM n p d pos = .ok (as, q)) :
    ∃ abs : List (α × β), abs.length = n ∧ abs.map Prod.fst = as ∧ (∀ ab ∈ abs, P ab.1 ab.2) ∧
      Took d pos q (abs.flatMap fun ab => enc ab.2) := by
  induction n generalizing pos as with
  | zero => cases h; exact ⟨[], rfl, rfl, by simp, Took.nil _ _⟩
  | succ n ih =>
    simp only [replicateM] at h
    obtain ⟨a, p1, h1, h⟩ := Rd.bind_ok.mp h
    obtain ⟨as', p2, h2, h⟩ := Rd.bind_ok.mp h
    cases h
    obtain ⟨b, hb1, hb2⟩ := hp _ _ _ h1
    obtain ⟨abs, e1, e2, e3, e4⟩ := ih h2
    refine ⟨(a, b) :: abs, by simp [e1], by simp [e2], ?_, ?_⟩
    · intro ab hab
      rcases List.mem_cons.mp hab with rfl | hab
      · exact hb1
      · exact e3 _ hab
    · rw [List.flatMap_cons]; exact hb2.append e4

/-! ### Magic and version -/

theorem readFtMagic_readsAt {h : FtHead} (hf : h.Fits) (hs : h.Supported) (off : Nat) :
    ReadsAt Embeddings.readFtMagic off h.magicBytes () := by
  unfold Embeddings.readFtMagic FtHead.magicBytes
  refine ReadsAt.bind (.readU32 hf.magic) ?_
  rw [if_neg (by simp [hs.magic, fastTextMagic])]
  have := ReadsAt.bind (b₂ := []) (f := fun version => if version > fastTextVersion then (fail .format : Rd Unit) else pure ())
    (b := ()) (ReadsAt.readU32 (off := off + (leBytes 4 h.magic).length) hf.version) (by
      rw [if_neg (by have := hs.version; simp [fastTextVersion]; omega)]
      exact .pure _ _)
  simpa using this

theorem readFtMagic_failsAt {h : FtHead} (hf : h.Fits) (hs : h.magic ≠ 793712314 ∨ 12 < h.version) (off : Nat) :
    FailsAt Embeddings.readFtMagic off h.magicBytes .format := by
  unfold Embeddings.readFtMagic FtHead.magicBytes
  refine FailsAt.right (.readU32 hf.magic) ?_
  by_cases hm : h.magic = 793712314
  · rw [if_neg (by simp [hm, fastTextMagic])]
    rw [← List.append_nil (leBytes 4 h.version)]
    refine FailsAt.right (.readU32 hf.version) ?_
    rw [if_pos (by have := hs.resolve_left (by simpa using hm); simpa [fastTextVersion] using this)]
    exact .fail _ _ _
  · rw [if_pos (by simpa [fastTextMagic] using hm)]
    exact .fail _ _ _

/-! ### Configuration -/

theorem readLoss_readsAt {n : Nat} (h : 1 ≤ n ∧ n ≤ 3) (off : Nat) :
    ReadsAt readLoss off (leBytes 4 n)
      (if n = 1 then .hierarchicalSoftmax else if n = 2 then .negativeSampling else .softmax) := by
  unfold readLoss
  rw [← List.append_nil (leBytes 4 n)]
  refine ReadsAt.bind (.readU32 (by omega)) ?_
  have : n = 1 ∨ n = 2 ∨ n = 3 := by omega
  rcases this with rfl | rfl | rfl <;> exact .pure _ _

theorem readLoss_failsAt {n : Nat} (hn : n < 2 ^ 32) (h : ¬ (1 ≤ n ∧ n ≤ 3)) (off : Nat) :
    FailsAt readLoss off (leBytes 4 n) .format := by
  unfold readLoss
  rw [← List.append_nil (leBytes 4 n)]
  refine FailsAt.right (.readU32 hn) ?_
  rw [if_neg (by omega), if_neg (by omega), if_neg (by omega)]
  exact .fail _ _ _

theorem readModel_readsAt {n : Nat} (h : 1 ≤ n ∧ n ≤ 3) (off : Nat) :
    ReadsAt readModel off (leBytes 4 n) (if n = 1 then .cbow else if n = 2 then .skipGram else .supervised) := by
  unfold readModel
  rw [← List.append_nil (leBytes 4 n)]
  refine ReadsAt.bind (.readU32 (by omega)) ?_
  have : n = 1 ∨ n = 2 ∨ n = 3 := by omega
  rcases this with rfl | rfl | rfl <;> exact .pure _ _

theorem readModel_failsAt {n : Nat} (hn : n < 2 ^ 32) (h : ¬ (1 ≤ n ∧ n ≤ 3)) (off : Nat) :
    FailsAt readModel off (leBytes 4 n) .format := by
  unfold readModel
  rw [← List.append_nil (leBytes 4 n)]
  refine FailsAt.right (.readU32 hn) ?_
  rw [if_neg (by omega), if_neg (by omega), if_neg (by omega)]
  exact .fail _ _ _

theorem readFtConfig_readsAt {h : FtHead} (hf : h.Fits) (hs : h.Supported) (off : Nat) :
    ReadsAt readFtConfig off h.configBytes h.config := by
  unfold readFtConfig FtHead.configBytes
  refine .bind (.readU32 hf.dims) (.bind (.readU32 hf.windowSize) (.bind (.readU32 hf.epoch)
    (.bind (.readU32 hf.minCount) (.bind (.readU32 hf.neg) (.bind (.readU32 hf.wordNgrams)
    (.bind (readLoss_readsAt hs.loss _) (.bind (readModel_readsAt hs.model _) (.bind (.readU32 hf.bucket)
    (.bind (.readU32 hf.minN) (.bind (.readU32 hf.maxN) (.bind (.readU32 hf.lrUpdateRate) ?_)))))))))))
  exact ReadsAt.map _ (.readU64 hf.samplingThreshold)

theorem readFtConfig_failsAt {h : FtHead} (hf : h.Fits)
    (hs : ¬ (1 ≤ h.loss ∧ h.loss ≤ 3) ∨ ¬ (1 ≤ h.model ∧ h.model ≤ 3)) (off : Nat) :
    FailsAt readFtConfig off h.configBytes .format := by
  unfold readFtConfig FtHead.configBytes
  refine .right (.readU32 hf.dims) (.right (.readU32 hf.windowSize) (.right (.readU32 hf.epoch)
    (.right (.readU32 hf.minCount) (.right (.readU32 hf.neg) (.right (.readU32 hf.wordNgrams) ?_)))))
  by_cases hl : 1 ≤ h.loss ∧ h.loss ≤ 3
  · refine .right (readLoss_readsAt hl _) ?_
    exact .left (.append (readModel_failsAt hf.model (hs.resolve_left (by simpa using hl)) _) _)
  · exact .left (.append (readLoss_failsAt hf.loss hl _) _)

/-! ### Vocabulary -/

theorem readFtVocabHead_readsAt {h : FtHead} (hf : h.Fits) (hs : h.Supported) (off : Nat) :
    ReadsAt readFtVocabHead off h.vocabBytes h.size := by
  unfold readFtVocabHead FtHead.vocabBytes
  refine .bind (.readU32 hf.size) (.bind (.readU32 hf.nWords) (.bind (.readU32 hf.nLabels) ?_))
  rw [if_neg (by simp [hs.nLabels])]
  refine .bind (.readU64 hf.nTokens) ?_
  rw [← List.append_nil (leBytes 8 h.prune)]
  refine .bind (.readU64 hf.prune) ?_
  rw [if_neg (by have := hs.prune; omega)]
  exact .pure _ _

theorem readFtVocabHead_failsAt {h : FtHead} (hf : h.Fits) (hs : h.nLabels ≠ 0 ∨ h.prune < 2 ^ 63) (off : Nat) :
    FailsAt readFtVocabHead off h.vocabBytes .format := by
  unfold readFtVocabHead FtHead.vocabBytes
  refine .right (.readU32 hf.size) (.right (.readU32 hf.nWords) (.right (.readU32 hf.nLabels) ?_))
  by_cases hl : h.nLabels = 0
  · rw [if_neg (by simp [hl])]
    refine .right (.readU64 hf.nTokens) ?_
    rw [← List.append_nil (leBytes 8 h.prune)]
    refine .right (.readU64 hf.prune) ?_
    rw [if_pos (hs.resolve_left (by simpa using hl))]
    exact .fail _ _ _
  · rw [if_pos (by omega)]
    exact .fail _ _ _

theorem readToken_raw {delim : UInt8} {bs : Bytes} {s : Str} {lossy : Bool} (h : delim ∉ bs)
    (hs : decodeToken lossy bs = .ok s) (off : Nat) : ReadsAt (readToken delim lossy) off (bs ++ [delim]) s := by
  unfold readToken
  have := ReadsAt.bind (f := fun buf : Bytes => Rd.lift (decodeToken lossy buf.dropLast)) (b₂ := []) (b := s)
    (readUntil_readsAt h off) (by
      rw [List.dropLast_concat, hs]
      exact ReadsAt.lift_ok _ _)
  simpa using this

theorem readToken_rawFails {delim : UInt8} {bs : Bytes} {lossy : Bool} {x : Err} (h : delim ∉ bs)
    (hs : decodeToken lossy bs = .err x) (off : Nat) : FailsAt (readToken delim lossy) off (bs ++ [delim]) x := by
  unfold readToken
  rw [← List.append_nil (bs ++ [delim])]
  refine FailsAt.right (readUntil_readsAt h off) ?_
  rw [List.dropLast_concat, hs]
  exact .lift _ _ _

theorem readFtWord_readsAt {e : FtEntry} (he : e.IsWord) {lossy : Bool} {s : Str}
    (hs : decodeToken lossy e.word = .ok s) (off : Nat) : ReadsAt (readFtWord lossy) off e.bytes s := by
  unfold readFtWord FtEntry.bytes
  refine .bind (readToken_raw he.word hs off) (.bind (.readU64 he.freq) ?_)
  rw [← List.append_nil (leBytes 1 e.kind)]
  have := ReadsAt.readExact (off + (e.word ++ [0]).length + (leBytes 8 e.freq).length) (leBytes 1 e.kind)
  rw [leBytes_length] at this
  refine .bind this ?_
  rw [leVal_leBytes_of_lt (by rw [he.kind]; decide), if_neg (by simp [he.kind])]
  exact .pure _ _

/-- An entry that is not a word, or is not valid UTF-8 in the strict reader, is refused. -/
theorem readFtWord_failsAt {e : FtEntry} (hw : (0 : UInt8) ∉ e.word) (hf : e.freq < 2 ^ 64) (hk : e.kind < 256)
    {lossy : Bool} (hs : e.kind ≠ 0 ∨ decodeToken lossy e.word = .err .format) (off : Nat) :
    FailsAt (readFtWord lossy) off e.bytes .format := by
  unfold readFtWord FtEntry.bytes
  cases hdec : decodeToken lossy e.word with
  | ok s =>
    refine .right (readToken_raw hw hdec off) (.right (.readU64 hf) ?_)
    rw [← List.append_nil (leBytes 1 e.kind)]
    have := ReadsAt.readExact (off + (e.word ++ [0]).length + (leBytes 8 e.freq).length) (leBytes 1 e.kind)
    rw [leBytes_length] at this
    refine .right this ?_
    rw [leVal_leBytes_of_lt (by simpa using hk), if_pos (hs.resolve_right (by rw [hdec]; simp))]
    exact .fail _ _ _
  | err x =>
    have hx : x = .format := by
      unfold decodeToken at hdec
      split at hdec
      · cases hdec
      · unfold Res.ofOption at hdec
        split at hdec <;> cases hdec
        rfl
    subst hx
    exact .left (.append (readToken_rawFails hw hdec off) _)
  | panic => exact absurd hdec (decodeToken_ne_panic _ _)

theorem readFtWord_took {lossy : Bool} {d : Bytes} {pos q : Nat} {s : Str} (h : readFtWord lossy d pos = .ok (s, q)) :
    ∃ e : FtEntry, (e.IsWord ∧ decodeToken lossy e.word = .ok s) ∧ Took d pos q e.bytes := by
  unfold readFtWord at h
  obtain ⟨w, p1, h1, h⟩ := Rd.bind_ok.mp h
  obtain ⟨freq, p2, h2, h⟩ := Rd.bind_ok.mp h
  obtain ⟨kind, p3, h3, h⟩ := Rd.bind_ok.mp h
  obtain ⟨hf, t2⟩ := readU64_took h2
  obtain ⟨hk, t3⟩ := readExact_took h3
  have hk0 : leVal kind = 0 := by
    by_cases hz : leVal kind = 0
    · exact hz
    · rw [if_pos (by simpa using hz)] at h; cases h
  rw [if_neg (by simpa using hk0)] at h
  cases h
  rw [readToken_apply] at h1
  obtain ⟨s', hs', he⟩ := Res.map_eq_ok.mp h1
  obtain ⟨rfl, rfl⟩ := Prod.mk.inj he
  rcases takeThrough_cases 0 (d.drop pos) with ⟨wb, rest, hnw, hd⟩ | hno
  · rw [hd, takeThrough_append hnw] at hs' t2
    refine ⟨⟨wb, freq, leVal kind⟩, ⟨⟨hnw, hf, hk0⟩, ?_⟩, ?_⟩
    · rwa [List.dropLast_concat] at hs'
    · unfold FtEntry.bytes
      have e1 := leBytes_leVal kind
      rw [hk] at e1
      rw [e1]
      have t1 : Took d pos (pos + (wb ++ [0]).length) (wb ++ [0]) := by
        refine ⟨?_, rfl⟩
        rw [← List.drop_drop, hd, List.append_assoc, List.singleton_append]
        congr 1
        rw [show wb ++ 0 :: rest = (wb ++ [0]) ++ rest by simp, List.drop_left' rfl]
      exact t1.append (t2.append t3)
  · exfalso
    rw [takeThrough_none hno] at t2
    unfold readU64 at h2
    obtain ⟨bs, p4, h4, -⟩ := Rd.bind_ok.mp h2
    obtain ⟨-, -, h5⟩ := readExact_ok h4
    have := h5 (by decide)
    rw [takeThrough_none hno] at this
    simp at this
    omega

/-! ### Whole files -/

theorem ReadsAt.at' {α : Type} {p : Rd α} {d : Bytes} {pos q : Nat} {bs : Bytes} {a : α} (h : ReadsAt p pos bs a)
    (ht : Took d pos q bs) (hp : pos ≤ d.length) : p d pos = .ok (a, q) := by
  have := h (d.take pos) (d.drop q) (by simp; omega)
  rwa [← ht.1, List.take_append_drop, ← ht.2] at this

theorem FailsAt.at' {α : Type} {p : Rd α} {d : Bytes} {pos q : Nat} {bs : Bytes} {x : Err} (h : FailsAt p pos bs x)
    (ht : Took d pos q bs) (hp : pos ≤ d.length) : p d pos = .err x := by
  have := h (d.take pos) (d.drop q) (by simp; omega)
  rwa [← ht.1, List.take_append_drop] at this

theorem Took.le {d : Bytes} {pos q : Nat} {bs : Bytes} (h : Took d pos q bs) (hne : bs ≠ []) : pos ≤ d.length := by
  by_cases hp : pos ≤ d.length
  · exact hp
  · have := h.1
    rw [List.drop_of_length_le (by omega)] at this
    exact absurd (List.append_eq_nil_iff.mp this.symm).1 hne

theorem Took.split {d : Bytes} {pos q : Nat} {a b : Bytes} (h : Took d pos q (a ++ b)) :
    Took d pos (pos + a.length) a ∧ Took d (pos + a.length) q b := by
  obtain ⟨h1, h2⟩ := h
  have : d.drop (pos + a.length) = b ++ d.drop q := by
    rw [← List.drop_drop, h1, List.append_assoc, List.drop_left' rfl]
  refine ⟨⟨by rw [this, h1, List.append_assoc], rfl⟩, this, ?_⟩
  rw [h2, List.length_append]; omega

theorem readFtMagic_took {d : Bytes} {pos q : Nat} {u : Unit} (h : Embeddings.readFtMagic d pos = .ok (u, q)) :
    ∃ version, version ≤ 12 ∧ Took d pos q (leBytes 4 793712314 ++ leBytes 4 version) := by
  unfold Embeddings.readFtMagic at h
  obtain ⟨magic, p1, h1, h⟩ := Rd.bind_ok.mp h
  by_cases hm : magic = fastTextMagic
  · rw [if_neg (by simpa using hm)] at h
    obtain ⟨version, p2, h2, h⟩ := Rd.bind_ok.mp h
    by_cases hv : version > fastTextVersion
    · rw [if_pos hv] at h; cases h
    · rw [if_neg hv] at h
      cases h
      refine ⟨version, by simpa [fastTextVersion] using hv, ?_⟩
      have := (readU32_took h1).2.append (readU32_took h2).2
      rwa [hm] at this
  · rw [if_pos (by simpa using hm)] at h; cases h

theorem readLoss_took {d : Bytes} {pos q : Nat} {l : FtLoss} (h : readLoss d pos = .ok (l, q)) :
    ∃ n, (1 ≤ n ∧ n ≤ 3) ∧ Took d pos q (leBytes 4 n) ∧
      l = if n = 1 then .hierarchicalSoftmax else if n = 2 then .negativeSampling else .softmax := by
  unfold readLoss at h
  obtain ⟨n, p1, h1, h⟩ := Rd.bind_ok.mp h
  have ht := (readU32_took h1).2
  by_cases a : n = 1
  · rw [if_pos a] at h; cases h; exact ⟨n, by omega, ht, by simp [a]⟩
  · rw [if_neg a] at h
    by_cases b : n = 2
    · rw [if_pos b] at h; cases h; exact ⟨n, by omega, ht, by simp [b]⟩
    · rw [if_neg b] at h
      by_cases c : n = 3
      · rw [if_pos c] at h; cases h; exact ⟨n, by omega, ht, by simp [c]⟩
      · rw [if_neg c] at h; cases h

theorem readModel_took {d : Bytes} {pos q : Nat} {l : FtModel} (h : readModel d pos = .ok (l, q)) :
    ∃ n, (1 ≤ n ∧ n ≤ 3) ∧ Took d pos q (leBytes 4 n) ∧
      l = if n = 1 then .cbow else if n = 2 then .skipGram else .supervised := by
  unfold readModel at h
  obtain ⟨n, p1, h1, h⟩ := Rd.bind_ok.mp h
  have ht := (readU32_took h1).2
  by_cases a : n = 1
  · rw [if_pos a] at h; cases h; exact ⟨n, by omega, ht, by simp [a]⟩
  · rw [if_neg a] at h
    by_cases b : n = 2
    · rw [if_pos b] at h; cases h; exact ⟨n, by omega, ht, by simp [b]⟩
    · rw [if_neg b] at h
      by_cases c : n = 3
      · rw [if_pos c] at h; cases h; exact ⟨n, by omega, ht, by simp [c]⟩
      · rw [if_neg c] at h; cases h

/-- If magic, configuration and vocabulary sizes could be read, the data has these numbers. -/
theorem readFtHead_took {d : Bytes} {pos p1 p2 p3 size : Nat} {u : Unit} {c : FtConfig}
    (h1 : Embeddings.readFtMagic d pos = .ok (u, p1)) (h2 : readFtConfig d p1 = .ok (c, p2))
    (h3 : readFtVocabHead d p2 = .ok (size, p3)) :
    ∃ h : FtHead, h.Fits ∧ h.Supported ∧ Took d pos p3 h.bytes ∧ c = h.config ∧ size = h.size := by
  obtain ⟨version, hv, t1⟩ := readFtMagic_took h1
  unfold readFtConfig at h2
  obtain ⟨dims, q1, a1, h2⟩ := Rd.bind_ok.mp h2
  obtain ⟨windowSize, q2, a2, h2⟩ := Rd.bind_ok.mp h2
  obtain ⟨epoch, q3, a3, h2⟩ := Rd.bind_ok.mp h2
  obtain ⟨minCount, q4, a4, h2⟩ := Rd.bind_ok.mp h2
  obtain ⟨neg, q5, a5, h2⟩ := Rd.bind_ok.mp h2
  obtain ⟨wordNgrams, q6, a6, h2⟩ := Rd.bind_ok.mp h2
  obtain ⟨loss, q7, a7, h2⟩ := Rd.bind_ok.mp h2
  obtain ⟨model, q8, a8, h2⟩ := Rd.bind_ok.mp h2
  obtain ⟨bucket, q9, a9, h2⟩ := Rd.bind_ok.mp h2
  obtain ⟨minN, q10, a10, h2⟩ := Rd.bind_ok.mp h2
  obtain ⟨maxN, q11, a11, h2⟩ := Rd.bind_ok.mp h2
  obtain ⟨lr, q12, a12, h2⟩ := Rd.bind_ok.mp h2
  obtain ⟨sampling, q13, a13, h2⟩ := Rd.bind_ok.mp h2
  cases h2
  obtain ⟨b1, t2⟩ := readU32_took a1
  obtain ⟨b2, t3⟩ := readU32_took a2
  obtain ⟨b3, t4⟩ := readU32_took a3
  obtain ⟨b4, t5⟩ := readU32_took a4
  obtain ⟨b5, t6⟩ := readU32_took a5
  obtain ⟨b6, t7⟩ := readU32_took a6
  obtain ⟨l, b7, t8, e7⟩ := readLoss_took a7
  obtain ⟨m, b8, t9, e8⟩ := readModel_took a8
  obtain ⟨b9, t10⟩ := readU32_took a9
  obtain ⟨b10, t11⟩ := readU32_took a10
  obtain ⟨b11, t12⟩ := readU32_took a11
  obtain ⟨b12, t13⟩ := readU32_took a12
  obtain ⟨b13, t14⟩ := readU64_took a13
  unfold readFtVocabHead at h3
  obtain ⟨sz, r1, c1, h3⟩ := Rd.bind_ok.mp h3
  obtain ⟨nWords, r2, c2, h3⟩ := Rd.bind_ok.mp h3
  obtain ⟨nLabels, r3, c3, h3⟩ := Rd.bind_ok.mp h3
  by_cases hl : nLabels > 0
  · rw [if_pos hl] at h3; cases h3
  rw [if_neg hl] at h3
  obtain ⟨nTokens, r4, c4, h3⟩ := Rd.bind_ok.mp h3
  obtain ⟨prune, r5, c5, h3⟩ := Rd.bind_ok.mp h3
  by_cases hp : prune < 2 ^ 63
  · rw [if_pos hp] at h3; cases h3
  rw [if_neg hp] at h3
  cases h3
  obtain ⟨d1, u1⟩ := readU32_took c1
  obtain ⟨d2, u2⟩ := readU32_took c2
  obtain ⟨d3, u3⟩ := readU32_took c3
  obtain ⟨d4, u4⟩ := readU64_took c4
  obtain ⟨d5, u5⟩ := readU64_took c5
  refine ⟨⟨793712314, version, dims, windowSize, epoch, minCount, neg, wordNgrams, l, m, bucket, minN, maxN, lr,
    sampling, size, nWords, nLabels, nTokens, prune⟩, ?_, ?_, ?_, ?_, rfl⟩
  · exact ⟨by simp only; omega, by simp only; omega, b1, b2, b3, b4, b5, b6, by simp only; omega, by simp only; omega, b9, b10,
      b11, b12, b13, d1, d2, d3, d4, d5⟩
  · exact ⟨rfl, hv, b7, b8, by simp only; omega, by simp only; omega⟩
  · exact t1.append ((t2.append (t3.append (t4.append (t5.append (t6.append (t7.append (t8.append (t9.append
      (t10.append (t11.append (t12.append (t13.append t14)))))))))))).append (u1.append (u2.append (u3.append
      (u4.append u5)))))
  · simp only [FtHead.config, e7, e8]

/-- A whole fastText file. -/
structure FtFile where
  head : FtHead
  entries : List FtEntry
  flag : Nat
  cols : Nat
  rows : List (List F32)

namespace FtFile

/-- Bytes of the vocabulary and everything before it. -/
def vocabBytes (f : FtFile) : Bytes := f.head.bytes ++ f.entries.flatMap FtEntry.bytes

/-- Bytes of the matrix. -/
def matrixBytes (f : FtFile) : Bytes := leBytes 8 f.rows.length ++ (leBytes 8 f.cols ++ encodeF32s f.rows.flatten)

/-- All bytes. -/
def bytes (f : FtFile) : Bytes := f.vocabBytes ++ (leBytes 1 f.flag ++ f.matrixBytes)

/-- Head and vocabulary are those of a supported model with the words `ws`. -/
structure VocabOk (f : FtFile) (lossy : Bool) (ws : List Str) : Prop where
  fits : f.head.Fits
  supported : f.head.Supported
  size : f.entries.length = f.head.size
  isWord : ∀ e ∈ f.entries, e.IsWord
  decode : f.entries.map (fun e => decodeToken lossy e.word) = ws.map .ok

/-- The matrix is not quantized, is rectangular and fits into memory. -/
structure MatrixOk (f : FtFile) : Prop where
  flag : f.flag < 256 ∧ f.flag ≠ 1
  nrows : f.rows.length < 2 ^ 64
  cols : f.cols < 2 ^ 64
  rect : ∀ r ∈ f.rows, r.length = f.cols
  alloc : (([f.rows.length, f.cols].filter (· ≠ 0)).prod ≤ isizeMax) ∧ 4 * (f.rows.length * f.cols) ≤ isizeMax

end FtFile

section
variable {T F : Type} [Scalar F] [ScalarNat F] [ConfigToml T] [FloatBits F]

theorem words_length {f : FtFile} {lossy : Bool} {ws : List Str} (h : f.VocabOk lossy ws) : ws.length = f.head.size := by
  have := congrArg List.length h.decode
  simp at this
  rw [← this, h.size]

theorem readFtWords_readsAt {f : FtFile} {lossy : Bool} {ws : List Str} (h : f.VocabOk lossy ws) (off : Nat) :
    ReadsAt (replicateM f.head.size (readFtWord lossy)) off (f.entries.flatMap FtEntry.bytes) ws := by
  rw [← h.size]
  have hw := h.isWord
  have hd := h.decode
  clear h
  generalize f.entries = es at hw hd
  induction es generalizing ws off with
  | nil =>
    have : ws = [] := by simpa using hd.symm
    subst this
    exact .pure _ _
  | cons e es ih =>
    cases ws with
    | nil => simp at hd
    | cons w ws =>
      simp only [List.map_cons, List.cons.injEq] at hd
      simp only [List.length_cons, replicateM, List.flatMap_cons]
      refine .bind (readFtWord_readsAt (hw e (by simp)) hd.1 off) ?_
      exact .map (w :: ·) (ih _ (fun e he => hw e (by simp [he])) hd.2)

theorem readFtVocab_readsAt {f : FtFile} {lossy : Bool} {ws : List Str} (h : f.VocabOk lossy ws) {ix : FastTextIndexer}
    (hix : FastTextIndexer.new f.head.bucket = .ok ix) {v : FastTextSubwordVocab}
    (hv : SubwordVocab.new ws f.head.minN f.head.maxN ix = .ok v) (off : Nat) :
    ReadsAt (readFtVocab f.head.config lossy) off (f.head.vocabBytes ++ f.entries.flatMap FtEntry.bytes) v := by
  unfold readFtVocab
  refine .bind (readFtVocabHead_readsAt h.fits h.supported off) (.bind0 (.alloc ?_) ?_)
  · have := h.fits.size; unfold isizeMax; omega
  · rw [← List.append_nil (f.entries.flatMap _)]
    refine .bind (readFtWords_readsAt h _) (.bind0 (a := ix) ?_ ?_)
    · have : FastTextIndexer.new f.head.config.bucket = .ok ix := hix
      rw [this]; exact .lift_ok _ _
    · have : SubwordVocab.new ws f.head.config.minN f.head.config.maxN ix = .ok v := hv
      rw [this]; exact .lift_ok _ _

omit [Scalar F] [ScalarNat F] in
theorem readFtMatrix_readsAt {f : FtFile} (h : f.MatrixOk) (off : Nat) :
    ReadsAt (readFtMatrix (F := F)) off f.matrixBytes ⟨⟨f.cols, f.rows.map (List.map FloatBits.ofBits)⟩⟩ := by
  unfold readFtMatrix FtFile.matrixBytes
  refine .bind (.readU64 h.nrows) (.bind (.readU64 h.cols) (.bind0 (allocArray_readsAt h.alloc.1 ?_) ?_))
  · simpa using h.alloc.2
  · have := ReadsAt.readF32s (off + (leBytes 8 f.rows.length).length + (leBytes 8 f.cols).length) f.rows.flatten
    rw [length_flatten_of h.rect] at this
    have := ReadsAt.map (fun xs => NdArray.mk (Mat.ofFlat f.rows.length f.cols (xs.map (FloatBits.ofBits (F := F))))) this
    have e : chunks f.rows.length f.cols (f.rows.flatten.map (FloatBits.ofBits (F := F))) =
        f.rows.map (List.map FloatBits.ofBits) := by
      have := chunks_flatten (f.rows.map (List.map (FloatBits.ofBits (F := F)))) f.cols (by
        intro l hl
        obtain ⟨r, hr, rfl⟩ := List.mem_map.mp hl
        simpa using h.rect r hr) []
      rw [List.length_map, List.append_nil, ← List.map_flatten] at this
      exact this
    rwa [Mat.ofFlat, e] at this

theorem readFtQuantized_readsAt {n : Nat} (h : n < 256 ∧ n ≠ 1) (off : Nat) :
    ReadsAt Embeddings.readFtQuantized off (leBytes 1 n) () := by
  unfold Embeddings.readFtQuantized
  rw [← List.append_nil (leBytes 1 n)]
  have := ReadsAt.readExact off (leBytes 1 n)
  rw [leBytes_length] at this
  refine .bind this ?_
  rw [leVal_leBytes_of_lt (by simpa using h.1), if_neg h.2]
  exact .pure _ _

/-- What comes after the parts of the file have been read. -/
theorem readFastText_of {f : FtFile} {lossy : Bool} {ws : List Str} (h : f.VocabOk lossy ws) (hm : f.MatrixOk)
    {ix : FastTextIndexer} (hix : FastTextIndexer.new f.head.bucket = .ok ix) {v : FastTextSubwordVocab}
    (hv : SubwordVocab.new ws f.head.minN f.head.maxN ix = .ok v) {d : Bytes} {pos q : Nat} (ht : Took d pos q f.bytes) :
    (Embeddings.readFastText lossy d pos : Res (Embeddings T FastTextSubwordVocab (NdArray F) F × Nat)) =
      (Embeddings.finishFastText f.head.config v ⟨⟨f.cols, f.rows.map (List.map FloatBits.ofBits)⟩⟩).map (·, q) := by
  have hlen : f.head.magicBytes.length = 8 := by simp [FtHead.magicBytes]
  have hp : pos ≤ d.length := by
    refine ht.le ?_
    intro hn
    have := congrArg List.length hn
    simp [FtFile.bytes, FtFile.vocabBytes, FtHead.bytes, hlen] at this
  have hq : q ≤ d.length := by
    have h1 := congrArg List.length ht.1
    simp only [List.length_append, List.length_drop] at h1
    have h2 := ht.2
    omega
  simp only [FtFile.bytes, FtFile.vocabBytes, FtHead.bytes, List.append_assoc] at ht
  obtain ⟨t1, ht⟩ := ht.split
  obtain ⟨t2, ht⟩ := ht.split
  rw [← List.append_assoc f.head.vocabBytes] at ht
  obtain ⟨t3, ht⟩ := ht.split
  obtain ⟨t4, t5⟩ := ht.split
  have hle : ∀ {p r : Nat} {bs : Bytes}, Took d p r bs → r ≤ q → p ≤ d.length := by
    intro p r bs h hr
    have := h.2
    omega
  have q5 := t5.2
  unfold Embeddings.readFastText
  simp only [bind_apply]
  rw [ReadsAt.at' (readFtMagic_readsAt h.fits h.supported _) t1 hp]
  simp only [Res.ok_bind]
  rw [ReadsAt.at' (readFtConfig_readsAt h.fits h.supported _) t2 (hle t2 (by omega))]
  simp only [Res.ok_bind]
  rw [ReadsAt.at' (readFtVocab_readsAt h hix hv _) t3 (hle t3 (by omega))]
  simp only [Res.ok_bind]
  rw [ReadsAt.at' (readFtQuantized_readsAt hm.flag _) t4 (hle t4 (by omega))]
  simp only [Res.ok_bind]
  rw [ReadsAt.at' (readFtMatrix_readsAt (F := F) hm _) t5 (hle t5 (by omega))]
  simp only [Res.ok_bind]
  rw [Rd.lift_apply]

omit [Scalar F] [ScalarNat F] in
theorem readFtMatrix_took {d : Bytes} {pos q : Nat} {s : NdArray F} (h : readFtMatrix (F := F) d pos = .ok (s, q)) :
    ∃ (k : Nat) (rows : List (List F32)), rows.length < 2 ^ 64 ∧ k < 2 ^ 64 ∧ (∀ r ∈ rows, r.length = k) ∧
      (([rows.length, k].filter (· ≠ 0)).prod ≤ isizeMax ∧ 4 * (rows.length * k) ≤ isizeMax) ∧
      Took d pos q (leBytes 8 rows.length ++ (leBytes 8 k ++ encodeF32s rows.flatten)) ∧
      s = ⟨⟨k, rows.map (List.map FloatBits.ofBits)⟩⟩ := by
  unfold readFtMatrix at h
  obtain ⟨m, p1, h1, h⟩ := Rd.bind_ok.mp h
  obtain ⟨n, p2, h2, h⟩ := Rd.bind_ok.mp h
  obtain ⟨u, p3, h3, h⟩ := Rd.bind_ok.mp h
  obtain ⟨xs, p4, h4, h⟩ := Rd.bind_ok.mp h
  cases h
  obtain ⟨b1, t1⟩ := readU64_took h1
  obtain ⟨b2, t2⟩ := readU64_took h2
  obtain ⟨b4, t4⟩ := readF32s_took h4
  obtain ⟨ha, rfl⟩ := Rd.assert_ok.mp h3
  have ha := of_decide_eq_true ha
  have hl : (chunks m n xs).length = m := chunks_length _ _ _
  refine ⟨n, chunks m n xs, by rw [hl]; exact b1, b2, fun r hr => chunks_mem_length (by omega) hr, ?_, ?_, ?_⟩
  · rw [hl]
    exact ⟨ha.1, by simpa using ha.2⟩
  · rw [hl, flatten_chunks b4]
    exact t1.append (t2.append t4)
  · have e : chunks m n (xs.map (FloatBits.ofBits (F := F))) = (chunks m n xs).map (List.map FloatBits.ofBits) := by
      have := chunks_flatten ((chunks m n xs).map (List.map (FloatBits.ofBits (F := F)))) n (by
        intro l hl
        obtain ⟨r, hr, rfl⟩ := List.mem_map.mp hl
        simpa using chunks_mem_length (by omega) hr) []
      rw [List.length_map, List.append_nil, ← List.map_flatten, hl, flatten_chunks b4] at this
      exact this
    rw [Mat.ofFlat, e]

theorem readFtQuantized_took {d : Bytes} {pos q : Nat} {u : Unit} (h : Embeddings.readFtQuantized d pos = .ok (u, q)) :
    ∃ n, (n < 256 ∧ n ≠ 1) ∧ Took d pos q (leBytes 1 n) := by
  unfold Embeddings.readFtQuantized at h
  obtain ⟨bs, p1, h1, h⟩ := Rd.bind_ok.mp h
  obtain ⟨hl, ht⟩ := readExact_took h1
  by_cases hq : leVal bs = 1
  · rw [if_pos hq] at h; cases h
  · rw [if_neg hq] at h
    cases h
    have e := leBytes_leVal bs
    have hlt := leVal_lt bs
    rw [hl] at e hlt
    exact ⟨leVal bs, ⟨by simpa using hlt, hq⟩, by rw [e]; exact ht⟩

theorem readFtWords_took {lossy : Bool} {n : Nat} {d : Bytes} {pos q : Nat} {ws : List Str}
    (h : replicateM n (readFtWord lossy) d pos = .ok (ws, q)) :
    ∃ es : List FtEntry, es.length = n ∧ (∀ e ∈ es, e.IsWord) ∧
      es.map (fun e => decodeToken lossy e.word) = ws.map .ok ∧ Took d pos q (es.flatMap FtEntry.bytes) := by
  obtain ⟨abs, e1, e2, e3, e4⟩ := replicateM_took (enc := FtEntry.bytes)
    (P := fun (s : Str) (e : FtEntry) => e.IsWord ∧ decodeToken lossy e.word = .ok s) (fun _ _ _ h => readFtWord_took h) h
  refine ⟨abs.map Prod.snd, by simpa using e1, ?_, ?_, ?_⟩
  · intro e he
    obtain ⟨ab, hab, rfl⟩ := List.mem_map.mp he
    exact (e3 ab hab).1
  · rw [← e2, List.map_map, List.map_map]
    exact List.map_congr_left fun ab hab => (e3 ab hab).2
  · rw [List.flatMap_map]
    exact e4

/-- **C53** (accepted files). A fastText file is accepted exactly if it has the fastText layout, is a supported model
(magic, version, loss, model, no labels, not pruned), has only words as entries, all decodable and different from each
other, fewer than 2^31 buckets, is not quantized, has a matrix with one row per word and bucket that fits into memory,
n-grams of all words can be looked up, and the configuration can be stored as metadata. Then the result has these
words, n-gram lengths and buckets, and its rows and norms are those of `FtRows`. -/
theorem c53_accepts (lossy : Bool) (d : Bytes) (pos q : Nat) (e : Embeddings T FastTextSubwordVocab (NdArray F) F) :
    Embeddings.readFastText lossy d pos = .ok (e, q) ↔
      ∃ (f : FtFile) (ws : List Str), Took d pos q f.bytes ∧ f.VocabOk lossy ws ∧ f.MatrixOk ∧
        f.rows.length = ws.length + f.head.bucket ∧
        (∀ w ∈ ws, 1 ≤ f.head.minN ∧ f.head.minN ≤ f.head.maxN ∧ (f.head.bucket ≠ 0 ∨ w.length + 2 < f.head.minN)) ∧
        (∃ ix, FastTextIndexer.new f.head.bucket = .ok ix ∧
          SubwordVocab.new ws f.head.minN f.head.maxN ix = .ok e.vocab) ∧
        (∃ md, ConfigToml.ofConfig f.head.config = some md ∧ e.metadata = some ⟨md⟩) ∧
        (∃ norms, e.norms = some ⟨norms⟩ ∧ e.storage.inner.cols = f.cols ∧
          FtRows e.vocab ws (f.rows.map (List.map FloatBits.ofBits)) e.storage.inner.rows norms) := by
  constructor
  · intro h
    unfold Embeddings.readFastText at h
    obtain ⟨u, p1, h1, h⟩ := Rd.bind_ok.mp h
    obtain ⟨c, p2, h2, h⟩ := Rd.bind_ok.mp h
    obtain ⟨v, p4, h3, h⟩ := Rd.bind_ok.mp h
    obtain ⟨u', p5, h5, h⟩ := Rd.bind_ok.mp h
    obtain ⟨s, p6, h6, h⟩ := Rd.bind_ok.mp h
    obtain ⟨hfin, rfl⟩ := Rd.lift_ok.mp h
    unfold readFtVocab at h3
    obtain ⟨size, p3, h4, h3⟩ := Rd.bind_ok.mp h3
    obtain ⟨u'', p3', h7, h3⟩ := Rd.bind_ok.mp h3
    obtain ⟨ws, p3'', h8, h3⟩ := Rd.bind_ok.mp h3
    obtain ⟨ix, p3''', h9, h3⟩ := Rd.bind_ok.mp h3
    obtain ⟨hv, rfl⟩ := Rd.lift_ok.mp h3
    obtain ⟨hix, rfl⟩ := Rd.lift_ok.mp h9
    obtain ⟨-, rfl⟩ := Rd.assert_ok.mp h7
    obtain ⟨hd, hfits, hsup, t1, rfl, rfl⟩ := readFtHead_took h1 h2 h4
    obtain ⟨es, e1, e2, e3, t2⟩ := readFtWords_took h8
    obtain ⟨flag, f1, t3⟩ := readFtQuantized_took h5
    obtain ⟨k, rows, m1, m2, m3, m4, t4, rfl⟩ := readFtMatrix_took h6
    obtain ⟨g1, g2, md, rows', norms, g3, rfl, g4⟩ := (finishFastText_eq_ok hix hv).mp hfin
    refine ⟨⟨hd, es, flag, k, rows⟩, ws, (t1.append t2).append (t3.append t4), ⟨hfits, hsup, e1, e2, e3⟩,
      ⟨f1, m1, m2, m3, m4⟩, (List.length_map _).symm.trans g2, g1, ⟨ix, hix, hv⟩, ⟨md, g3, rfl⟩, norms, rfl, rfl, g4⟩
  · rintro ⟨f, ws, ht, hvo, hmo, hrows, hdef, ⟨ix, hix, hv⟩, ⟨md, hmd, hme⟩, norms, hn, hc, hr⟩
    rw [readFastText_of hvo hmo hix hv ht]
    obtain ⟨em, ⟨⟨ec, er⟩⟩, ev, en⟩ := e
    simp only at hme hn hc hr
    subst hme hn hc
    have : Embeddings.finishFastText f.head.config ev ⟨⟨f.cols, f.rows.map (List.map FloatBits.ofBits)⟩⟩ =
        .ok (⟨some ⟨md⟩, ⟨⟨f.cols, er⟩⟩, ev, some ⟨norms⟩⟩ : Embeddings T FastTextSubwordVocab (NdArray F) F) :=
      (finishFastText_eq_ok (c := f.head.config) hix hv).mpr
        ⟨hdef, (List.length_map _).trans hrows, md, er, norms, hmd, rfl, hr⟩
    rw [this]
    rfl

end

/-! ## C53: rejected files -/

section
variable {T F : Type} [Scalar F] [ScalarNat F] [ConfigToml T] [FloatBits F]

/-- **C53** (unsupported models). Whatever follows, a file that starts with the numbers of a fastText model that is
not supported is refused with a format error. -/
theorem c53_unsupported (lossy : Bool) (d : Bytes) (pos q : Nat) (h : FtHead) (hf : h.Fits) (ht : Took d pos q h.bytes)
    (hs : ¬ h.Supported) :
    (Embeddings.readFastText lossy d pos : Res (Embeddings T FastTextSubwordVocab (NdArray F) F × Nat)) =
      .err .format := by
  have hp : pos ≤ d.length := ht.le fun hn => by
    have := congrArg List.length hn
    simp [FtHead.bytes, FtHead.magicBytes] at this
  refine FailsAt.at' (bs := h.bytes) (x := .format) ?_ ht hp
  unfold Embeddings.readFastText FtHead.bytes
  by_cases h1 : h.magic ≠ 793712314 ∨ 12 < h.version
  · exact .left (.append (readFtMagic_failsAt hf h1 _) _)
  have h1' : h.magic = 793712314 ∧ h.version ≤ 12 := by
    simp only [ne_eq, not_or, Classical.not_not] at h1; omega
  have hmag : ReadsAt Embeddings.readFtMagic pos h.magicBytes () := by
    unfold Embeddings.readFtMagic FtHead.magicBytes
    refine ReadsAt.bind (.readU32 hf.magic) ?_
    rw [if_neg (by simp [h1'.1, fastTextMagic]), ← List.append_nil (leBytes 4 h.version)]
    refine ReadsAt.bind (.readU32 hf.version) ?_
    rw [if_neg (by simp [fastTextVersion]; omega)]
    exact .pure _ _
  refine .right hmag ?_
  by_cases h2 : ¬ (1 ≤ h.loss ∧ h.loss ≤ 3) ∨ ¬ (1 ≤ h.model ∧ h.model ≤ 3)
  · exact .left (.append (readFtConfig_failsAt hf h2 _) _)
  have h2' : (1 ≤ h.loss ∧ h.loss ≤ 3) ∧ (1 ≤ h.model ∧ h.model ≤ 3) := by
    simp only [not_or, Classical.not_not] at h2; exact h2
  have hcfg : ReadsAt readFtConfig (pos + h.magicBytes.length) h.configBytes h.config := by
    have := readFtConfig_readsAt (h := { h with nLabels := 0, prune := 2 ^ 63 })
      ⟨hf.magic, hf.version, hf.dims, hf.windowSize, hf.epoch, hf.minCount, hf.neg, hf.wordNgrams, hf.loss, hf.model,
        hf.bucket, hf.minN, hf.maxN, hf.lrUpdateRate, hf.samplingThreshold, hf.size, hf.nWords,
        (by decide : 0 < 2 ^ 32), hf.nTokens, (by decide : 2 ^ 63 < 2 ^ 64)⟩
      ⟨h1'.1, h1'.2, h2'.1, h2'.2, rfl, (by decide : 2 ^ 63 ≤ 2 ^ 63)⟩ (pos + h.magicBytes.length)
    exact this
  refine .right hcfg ?_
  have h3 : h.nLabels ≠ 0 ∨ h.prune < 2 ^ 63 := by
    by_cases ha : h.nLabels = 0
    · by_cases hb : h.prune < 2 ^ 63
      · exact .inr hb
      · exact absurd ⟨h1'.1, h1'.2, h2'.1, h2'.2, ha, by omega⟩ hs
    · exact .inl ha
  unfold readFtVocab
  exact .left (.left (readFtVocabHead_failsAt hf h3 _))

theorem FailsAt.replicateM {α : Type} {p : Rd α} {off n : Nat} {as : List α} {bs b : Bytes} {x : Err}
    (h : ReadsAt (replicateM as.length p) off bs as) (hf : FailsAt p (off + bs.length) b x) (hn : as.length < n) :
    FailsAt (Rd.replicateM n p) off (bs ++ b) x := by
  obtain ⟨k, rfl⟩ : ∃ k, n = as.length + (k + 1) := ⟨n - as.length - 1, by omega⟩
  have split : ∀ (i j : Nat), Rd.replicateM (i + j) p = (do
      let xs ← Rd.replicateM i p
      let ys ← Rd.replicateM j p
      pure (xs ++ ys)) := by
    intro i j
    induction i with
    | zero => simp [Rd.replicateM]
    | succ i ih =>
      rw [Nat.succ_add]
      simp only [Rd.replicateM, ih, bind_assoc, pure_bind, List.cons_append]
  rw [split]
  refine .right h ?_
  simp only [Rd.replicateM]
  exact .left (.left hf)

/-- **C53** (other entries). If the vocabulary has an entry that is not a word (a label, for instance), or one that the
strict reader cannot decode, the file is refused with a format error, whatever follows. -/
theorem c53_entry (lossy : Bool) (d : Bytes) (pos q : Nat) (h : FtHead) (hf : h.Fits) (hs : h.Supported)
    (es : List FtEntry) (ws : List Str) (hes : ∀ e ∈ es, e.IsWord)
    (hws : es.map (fun e => decodeToken lossy e.word) = ws.map .ok) (hlt : es.length < h.size) (e : FtEntry)
    (hw : (0 : UInt8) ∉ e.word) (hfr : e.freq < 2 ^ 64) (hk : e.kind < 256)
    (hbad : e.kind ≠ 0 ∨ decodeToken lossy e.word = .err .format)
    (ht : Took d pos q (h.bytes ++ (es.flatMap FtEntry.bytes ++ e.bytes))) :
    (Embeddings.readFastText lossy d pos : Res (Embeddings T FastTextSubwordVocab (NdArray F) F × Nat)) =
      .err .format := by
  have hp : pos ≤ d.length := ht.le fun hn => by
    have := congrArg List.length hn
    simp [FtHead.bytes, FtHead.magicBytes] at this
  refine FailsAt.at' (x := .format) ?_ ht hp
  unfold Embeddings.readFastText FtHead.bytes
  rw [List.append_assoc]
  refine .right (readFtMagic_readsAt hf hs _) ?_
  rw [List.append_assoc]
  refine .right (readFtConfig_readsAt hf hs _) (.left ?_)
  unfold readFtVocab
  refine .right (readFtVocabHead_readsAt hf hs _) (.right0 (.alloc ?_) (.left ?_))
  · have := hf.size; unfold isizeMax; omega
  · have hlen : ws.length = es.length := by simpa using (congrArg List.length hws).symm
    refine FailsAt.replicateM (as := ws) ?_ (readFtWord_failsAt hw hfr hk hbad _) (by omega)
    have := readFtWords_readsAt (f := ⟨{ h with size := es.length }, es, 0, 0, []⟩) (ws := ws) (lossy := lossy)
      ⟨⟨hf.magic, hf.version, hf.dims, hf.windowSize, hf.epoch, hf.minCount, hf.neg, hf.wordNgrams, hf.loss, hf.model,
        hf.bucket, hf.minN, hf.maxN, hf.lrUpdateRate, hf.samplingThreshold, Nat.lt_trans hlt hf.size, hf.nWords,
        hf.nLabels, hf.nTokens, hf.prune⟩, ⟨hs.magic, hs.version, hs.loss, hs.model, hs.nLabels, hs.prune⟩, rfl, hes,
        hws⟩
    rw [hlen]
    exact this _

/-- **C53** (quantized models). A quantized model is refused with a format error, provided the vocabulary can be
built: different words and fewer than 2^31 buckets. -/
theorem c53_quantized_partial (lossy : Bool) (d : Bytes) (pos q : Nat) (f : FtFile) (ws : List Str) (h : f.VocabOk lossy ws)
    (hnd : ws.Nodup) (hb : f.head.bucket < 2 ^ 31) (hq : f.flag = 1)
    (ht : Took d pos q (f.vocabBytes ++ leBytes 1 f.flag)) :
    (Embeddings.readFastText lossy d pos : Res (Embeddings T FastTextSubwordVocab (NdArray F) F × Nat)) =
      .err .format := by
  have hp : pos ≤ d.length := ht.le fun hn => by
    have := congrArg List.length hn
    simp [FtFile.vocabBytes, FtHead.bytes, FtHead.magicBytes] at this
  obtain ⟨ix, hix⟩ : ∃ ix, FastTextIndexer.new f.head.bucket = .ok ix := ⟨_, FastTextIndexer.new_eq_ok.mpr ⟨by omega, rfl⟩⟩
  obtain ⟨v, hv⟩ : ∃ v, SubwordVocab.new ws f.head.minN f.head.maxN ix = .ok v := by
    refine ⟨_, SubwordVocab.newWithBoundaries_eq_ok.mpr ⟨hnd, ⟨_, rfl, ?_⟩, rfl⟩⟩
    have := words_length h
    have := h.fits.size
    have := ix.buckets.toNat_lt
    unfold usizeMax
    omega
  refine FailsAt.at' (x := .format) ?_ ht hp
  unfold Embeddings.readFastText FtFile.vocabBytes FtHead.bytes
  simp only [List.append_assoc]
  refine .right (readFtMagic_readsAt h.fits h.supported _) (.right (readFtConfig_readsAt h.fits h.supported _) ?_)
  rw [← List.append_assoc]
  refine .right (readFtVocab_readsAt h hix hv _) (.left ?_)
  unfold Embeddings.readFtQuantized
  rw [← List.append_nil (leBytes 1 f.flag)]
  have hr := ReadsAt.readExact (pos + f.head.magicBytes.length + f.head.configBytes.length +
    (f.head.vocabBytes ++ f.entries.flatMap FtEntry.bytes).length) (leBytes 1 f.flag)
  rw [leBytes_length] at hr
  refine .right hr ?_
  rw [leVal_leBytes_of_lt (by rw [hq]; decide), if_pos hq]
  exact .fail _ _ _

/-- **C53** (misshapen matrix). If the number of rows is not the number of words plus the number of buckets, the file
is not accepted; it is refused with a shape error if the rows the words refer to exist and their n-grams can be
looked up. -/
theorem c53_shape_partial (lossy : Bool) (d : Bytes) (pos q : Nat) (f : FtFile) (ws : List Str) (h : f.VocabOk lossy ws)
    (hm : f.MatrixOk) (hnd : ws.Nodup) (hb : f.head.bucket < 2 ^ 31) (ht : Took d pos q f.bytes)
    (hrows : f.rows.length ≠ ws.length + f.head.bucket) :
    ((Embeddings.readFastText lossy d pos : Res (Embeddings T FastTextSubwordVocab (NdArray F) F × Nat)) =
      .err .shape ∨
     (Embeddings.readFastText lossy d pos : Res (Embeddings T FastTextSubwordVocab (NdArray F) F × Nat)) = .panic) ∧
    ((∀ w ∈ ws, 1 ≤ f.head.minN ∧ f.head.minN ≤ f.head.maxN ∧ (f.head.bucket ≠ 0 ∨ w.length + 2 < f.head.minN)) →
      ws.length + f.head.bucket ≤ f.rows.length →
      (Embeddings.readFastText lossy d pos : Res (Embeddings T FastTextSubwordVocab (NdArray F) F × Nat)) =
        .err .shape) := by
  obtain ⟨ix, hix⟩ : ∃ ix, FastTextIndexer.new f.head.bucket = .ok ix := ⟨_, FastTextIndexer.new_eq_ok.mpr ⟨by omega, rfl⟩⟩
  obtain ⟨v, hv⟩ : ∃ v, SubwordVocab.new ws f.head.minN f.head.maxN ix = .ok v := by
    refine ⟨_, SubwordVocab.newWithBoundaries_eq_ok.mpr ⟨hnd, ⟨_, rfl, ?_⟩, rfl⟩⟩
    have := words_length h
    have := h.fits.size
    have := ix.buckets.toNat_lt
    unfold usizeMax
    omega
  obtain ⟨-, hw, hwl, hvl, -⟩ := ft_vocab_fields hix hv
  rw [readFastText_of h hm hix hv ht]
  have key : (Embeddings.finishFastText f.head.config v ⟨⟨f.cols, f.rows.map (List.map FloatBits.ofBits)⟩⟩ :
      Res (Embeddings T FastTextSubwordVocab (NdArray F) F)) = .err .shape ∨
      (Embeddings.finishFastText f.head.config v ⟨⟨f.cols, f.rows.map (List.map FloatBits.ofBits)⟩⟩ :
      Res (Embeddings T FastTextSubwordVocab (NdArray F) F)) = .panic := by
    unfold Embeddings.finishFastText
    cases hadd : addSubwordEmbeddings v (⟨f.cols, f.rows.map (List.map FloatBits.ofBits)⟩ : Mat F) with
    | ok m' =>
      have hl := (addSubword_shape hadd).2
      simp only [List.length_map] at hl
      simp only [Res.ok_bind]
      rw [hwl]
      by_cases hle : ws.length ≤ m'.rows.length
      · rw [normalizeFirst_eq hle]
        simp only [Res.ok_bind]
        left
        rw [if_pos]
        simp only [Mat.nrows, List.length_append, List.length_map, List.length_take, List.length_drop]
        show _ ≠ ws.length + f.head.bucket
        omega
      · right
        have : normalizeFirst ws.length m' = .panic := by
          unfold normalizeFirst
          have : ¬ ws.length ≤ m'.nrows := hle
          simp [this, Res.assert]
        rw [this]
        rfl
    | err x => exact absurd hadd (addSubword_noErr v _ x)
    | panic => exact .inr rfl
  constructor
  · rcases key with h1 | h1 <;> rw [h1]
    · exact .inl rfl
    · exact .inr rfl
  · intro hd hle
    rcases key with h1 | h1
    · rw [h1]; rfl
    · exfalso
      rcases (finishFastText_eq_panic (T := T) (c := f.head.config) hix hv).mp h1 with ⟨w, hww, hn⟩ | hlt | ⟨w, hww, is, j, his, hj, hge⟩
      · exact hn (hd w hww)
      · simp at hlt; omega
      · obtain ⟨o, ho, hin⟩ := ft_subwords hix hv w (hd w hww)
        rw [his] at ho
        cases ho
        have := (hin is rfl j hj).2
        simp at hge
        omega

/-- **C53** (panics). The reader panics exactly in these cases: words are repeated, or there are 2^31 buckets or
more; the matrix does not fit into memory; the n-grams of a word cannot be looked up (bad n-gram lengths, or no
buckets); the row of a word or of one of its n-grams is missing. -/
theorem c53_panics (lossy : Bool) (d : Bytes) (pos : Nat) :
    (Embeddings.readFastText lossy d pos : Res (Embeddings T FastTextSubwordVocab (NdArray F) F × Nat)) = .panic ↔
      ∃ (f : FtFile) (ws : List Str) (q : Nat), f.VocabOk lossy ws ∧
        (Took d pos q f.vocabBytes ∧ (¬ ws.Nodup ∨ 2 ^ 31 ≤ f.head.bucket) ∨
         (∃ m k, Took d pos q (f.vocabBytes ++ (leBytes 1 f.flag ++ (leBytes 8 m ++ leBytes 8 k))) ∧
            (f.flag < 256 ∧ f.flag ≠ 1) ∧ m < 2 ^ 64 ∧ k < 2 ^ 64 ∧
            ¬ (([m, k].filter (· ≠ 0)).prod ≤ isizeMax ∧ 4 * (m * k) ≤ isizeMax)) ∨
         Took d pos q f.bytes ∧ f.MatrixOk ∧
            ((∃ w ∈ ws, ¬ (1 ≤ f.head.minN ∧ f.head.minN ≤ f.head.maxN ∧
                (f.head.bucket ≠ 0 ∨ w.length + 2 < f.head.minN))) ∨
             f.rows.length < ws.length ∨
             ∃ ix v, FastTextIndexer.new f.head.bucket = .ok ix ∧
               SubwordVocab.new ws f.head.minN f.head.maxN ix = .ok v ∧
               ∃ w ∈ ws, ∃ is j, v.subwordIndices w = .ok (some is) ∧ j ∈ is ∧ f.rows.length ≤ j)) := by
  have np1 : NoPanic Embeddings.readFtMagic := by
    unfold Embeddings.readFtMagic
    refine .bind .readU32 fun _ => ?_
    split
    · exact .fail _
    · refine .bind .readU32 fun _ => ?_
      split
      · exact .fail _
      · exact .pure _
  have npl : NoPanic readLoss := by
    unfold readLoss
    refine .bind .readU32 fun _ => ?_
    repeat' split
    all_goals first | exact .pure _ | exact .fail _
  have npm : NoPanic readModel := by
    unfold readModel
    refine .bind .readU32 fun _ => ?_
    repeat' split
    all_goals first | exact .pure _ | exact .fail _
  have np2 : NoPanic readFtConfig := by
    unfold readFtConfig
    exact .bind .readU32 fun _ => .bind .readU32 fun _ => .bind .readU32 fun _ => .bind .readU32 fun _ =>
      .bind .readU32 fun _ => .bind .readU32 fun _ => .bind npl fun _ => .bind npm fun _ => .bind .readU32 fun _ =>
      .bind .readU32 fun _ => .bind .readU32 fun _ => .bind .readU32 fun _ => .bind .readU64 fun _ => .pure _
  have np3 : NoPanic readFtVocabHead := by
    unfold readFtVocabHead
    refine .bind .readU32 fun _ => .bind .readU32 fun _ => .bind .readU32 fun _ => ?_
    split
    · exact .fail _
    · refine .bind .readU64 fun _ => .bind .readU64 fun _ => ?_
      split
      · exact .fail _
      · exact .pure _
  have np4 : NoPanic (readFtWord lossy) := by
    unfold readFtWord
    refine .bind (readToken_noPanic _ _) fun _ => .bind .readU64 fun _ => .bind (.readExact _) fun _ => ?_
    split
    · exact .fail _
    · exact .pure _
  have np5 : NoPanic Embeddings.readFtQuantized := by
    unfold Embeddings.readFtQuantized
    refine .bind (.readExact _) fun _ => ?_
    split
    · exact .fail _
    · exact .pure _
  have build : ∀ {f : FtFile} {ws : List Str}, f.VocabOk lossy ws → ws.Nodup → f.head.bucket < 2 ^ 31 →
      ∃ ix v, FastTextIndexer.new f.head.bucket = .ok ix ∧ SubwordVocab.new ws f.head.minN f.head.maxN ix = .ok v := by
    intro f ws h hnd hb
    refine ⟨⟨UInt32.ofNat f.head.bucket⟩, _, FastTextIndexer.new_eq_ok.mpr ⟨by omega, rfl⟩,
      SubwordVocab.newWithBoundaries_eq_ok.mpr ⟨hnd, ⟨_, rfl, ?_⟩, rfl⟩⟩
    have := words_length h
    have := h.fits.size
    have := (UInt32.ofNat f.head.bucket).toNat_lt
    show ws.length + (UInt32.ofNat f.head.bucket).toNat ≤ usizeMax
    unfold usizeMax
    omega
  constructor
  · intro h
    unfold Embeddings.readFastText at h
    simp only [bind_apply] at h
    obtain ⟨⟨u, p1⟩, h1, h⟩ := (Res.bind_eq_panic.mp h).resolve_left (np1 d pos)
    simp only at h
    obtain ⟨⟨c, p2⟩, h2, h⟩ := (Res.bind_eq_panic.mp h).resolve_left (np2 d p1)
    simp only at h
    by_cases hvoc : readFtVocab c lossy d p2 = .panic
    · unfold readFtVocab at hvoc
      simp only [bind_apply] at hvoc
      obtain ⟨⟨size, p3⟩, h3, hvoc⟩ := (Res.bind_eq_panic.mp hvoc).resolve_left (np3 d p2)
      obtain ⟨hd, hfits, hsup, t1, rfl, rfl⟩ := readFtHead_took h1 h2 h3
      simp only at hvoc
      obtain ⟨⟨u', p3'⟩, h4, hvoc2⟩ := (Res.bind_eq_panic.mp hvoc).resolve_left (NoPanic.alloc (by
        have := hfits.size; unfold isizeMax; omega) d p3)
      obtain ⟨-, rfl⟩ := Rd.assert_ok.mp h4
      obtain ⟨⟨ws, p4⟩, h5, hvoc3⟩ := (Res.bind_eq_panic.mp hvoc2).resolve_left (NoPanic.replicateM np4 _ d p3')
      obtain ⟨es, e1, e2, e3, t2⟩ := readFtWords_took h5
      have hvo : FtFile.VocabOk ⟨hd, es, 0, 0, []⟩ lossy ws := ⟨hfits, hsup, e1, e2, e3⟩
      refine ⟨⟨hd, es, 0, 0, []⟩, ws, p4, hvo, .inl ⟨t1.append t2, ?_⟩⟩
      by_cases hnd : ws.Nodup
      · by_cases hb : 2 ^ 31 ≤ hd.bucket
        · exact .inr hb
        · exfalso
          obtain ⟨ix, v, hix, hv⟩ := build hvo hnd (by simp only; omega)
          simp only at hix hv hvoc3
          have hix' : FastTextIndexer.new hd.config.bucket = .ok ix := hix
          have hv' : SubwordVocab.new ws hd.config.minN hd.config.maxN ix = .ok v := hv
          rw [hix'] at hvoc3
          simp only [lift_ok_apply, Res.ok_bind] at hvoc3
          rw [hv'] at hvoc3
          cases hvoc3
      · exact .inl hnd
    · obtain ⟨⟨v, p3⟩, h3, h⟩ := (Res.bind_eq_panic.mp h).resolve_left hvoc
      unfold readFtVocab at h3
      obtain ⟨size, q3, h4, h3⟩ := Rd.bind_ok.mp h3
      obtain ⟨u'', q4, h7, h3⟩ := Rd.bind_ok.mp h3
      obtain ⟨ws, q5, h8, h3⟩ := Rd.bind_ok.mp h3
      obtain ⟨ix, q6, h9, h3⟩ := Rd.bind_ok.mp h3
      obtain ⟨hv, rfl⟩ := Rd.lift_ok.mp h3
      obtain ⟨hix, rfl⟩ := Rd.lift_ok.mp h9
      obtain ⟨-, rfl⟩ := Rd.assert_ok.mp h7
      obtain ⟨hd, hfits, hsup, t1, rfl, rfl⟩ := readFtHead_took h1 h2 h4
      obtain ⟨es, e1, e2, e3, t2⟩ := readFtWords_took h8
      simp only at h
      obtain ⟨⟨u, p5⟩, h5, h⟩ := (Res.bind_eq_panic.mp h).resolve_left (np5 d _)
      obtain ⟨flag, f1, t3⟩ := readFtQuantized_took h5
      simp only at h
      by_cases hmat : readFtMatrix (F := F) d p5 = .panic
      · unfold readFtMatrix at hmat
        simp only [bind_apply] at hmat
        obtain ⟨⟨m, r1⟩, a1, hmat⟩ := (Res.bind_eq_panic.mp hmat).resolve_left (NoPanic.readU64 d p5)
        simp only at hmat
        obtain ⟨⟨k, r2⟩, a2, hmat⟩ := (Res.bind_eq_panic.mp hmat).resolve_left (NoPanic.readU64 d r1)
        simp only at hmat
        obtain ⟨b1, t4⟩ := readU64_took a1
        obtain ⟨b2, t5⟩ := readU64_took a2
        refine ⟨⟨hd, es, flag, 0, []⟩, ws, r2, ⟨hfits, hsup, e1, e2, e3⟩, .inr (.inl ⟨m, k,
          (t1.append t2).append (t3.append (t4.append t5)), f1, b1, b2, ?_⟩)⟩
        intro hal
        rcases Res.bind_eq_panic.mp hmat with hp | ⟨⟨u, r3⟩, -, hp⟩
        · unfold allocArray at hp
          rw [decide_eq_true (by exact ⟨hal.1, by simpa using hal.2⟩)] at hp
          cases hp
        · rcases Res.bind_eq_panic.mp hp with hp | ⟨_, -, hp⟩
          · exact NoPanic.readF32s _ _ _ hp
          · cases hp
      · obtain ⟨⟨s, p6⟩, h6, h⟩ := (Res.bind_eq_panic.mp h).resolve_left hmat
        obtain ⟨k, rows, m1, m2, m3, m4, t4, rfl⟩ := readFtMatrix_took h6
        simp only at h
        rw [Rd.lift_apply, Res.map_eq_panic] at h
        refine ⟨⟨hd, es, flag, k, rows⟩, ws, p6, ⟨hfits, hsup, e1, e2, e3⟩, .inr (.inr
          ⟨(t1.append t2).append (t3.append t4), ⟨f1, m1, m2, m3, m4⟩, ?_⟩)⟩
        rcases (finishFastText_eq_panic (c := hd.config) hix hv).mp h with h | h | h
        · exact .inl h
        · exact .inr (.inl (by simpa using h))
        · simp only [List.length_map] at h
          exact .inr (.inr ⟨ix, v, hix, hv, h⟩)
  · rintro ⟨f, ws, q, hvo, hc⟩
    have hlen : f.head.magicBytes.length = 8 := by simp [FtHead.magicBytes]
    -- reading up to and including the words
    have pref : ∀ {r : Nat}, Took d pos r f.vocabBytes → r ≤ d.length →
        Embeddings.readFtMagic d pos = .ok ((), pos + f.head.magicBytes.length) ∧
        readFtConfig d (pos + f.head.magicBytes.length) =
          .ok (f.head.config, pos + f.head.magicBytes.length + f.head.configBytes.length) ∧
        readFtVocabHead d (pos + f.head.magicBytes.length + f.head.configBytes.length) =
          .ok (f.head.size, pos + f.head.magicBytes.length + f.head.configBytes.length + f.head.vocabBytes.length) ∧
        replicateM f.head.size (readFtWord lossy) d
          (pos + f.head.magicBytes.length + f.head.configBytes.length + f.head.vocabBytes.length) = .ok (ws, r) := by
      intro r ht hr
      have hr' := ht.2
      simp only [FtFile.vocabBytes, FtHead.bytes, List.append_assoc, List.length_append] at ht hr'
      obtain ⟨t1, ht⟩ := ht.split
      obtain ⟨t2, ht⟩ := ht.split
      obtain ⟨t3, t4⟩ := ht.split
      exact ⟨ReadsAt.at' (readFtMagic_readsAt hvo.fits hvo.supported _) t1 (by omega),
        ReadsAt.at' (readFtConfig_readsAt hvo.fits hvo.supported _) t2 (by omega),
        ReadsAt.at' (readFtVocabHead_readsAt hvo.fits hvo.supported _) t3 (by omega),
        ReadsAt.at' (readFtWords_readsAt hvo _) t4 (by omega)⟩
    have hle : ∀ {r : Nat} {bs : Bytes}, Took d pos r bs → bs ≠ [] → r ≤ d.length := by
      intro r bs ht hne
      have h0 := ht.le hne
      have h1 := congrArg List.length ht.1
      simp only [List.length_append, List.length_drop] at h1
      have h2 := ht.2
      omega
    have hne : f.vocabBytes ≠ [] := fun hn => by
      have := congrArg List.length hn
      simp [FtFile.vocabBytes, FtHead.bytes, hlen] at this
    have dup : ∀ {r : Nat}, Took d pos r f.vocabBytes → (¬ ws.Nodup ∨ 2 ^ 31 ≤ f.head.bucket) →
        (Embeddings.readFastText lossy d pos : Res (Embeddings T FastTextSubwordVocab (NdArray F) F × Nat)) = .panic := by
      intro r ht hbad
      obtain ⟨a1, a2, a3, a4⟩ := pref ht (hle ht hne)
      unfold Embeddings.readFastText
      simp only [bind_apply, a1, Res.ok_bind, a2]
      have : readFtVocab f.head.config lossy d (pos + f.head.magicBytes.length + f.head.configBytes.length) = .panic := by
        unfold readFtVocab
        simp only [bind_apply, a3, Res.ok_bind]
        have hal : alloc 24 f.head.size d (pos + f.head.magicBytes.length + f.head.configBytes.length +
            f.head.vocabBytes.length) = .ok ((), pos + f.head.magicBytes.length + f.head.configBytes.length +
            f.head.vocabBytes.length) := by
          have : 24 * f.head.size ≤ isizeMax := by have := hvo.fits.size; unfold isizeMax; omega
          simp [alloc, this, Res.assert]
        rw [hal]
        simp only [Res.ok_bind, a4]
        cases hix : FastTextIndexer.new f.head.config.bucket with
        | ok ix =>
          simp only [lift_ok_apply, Res.ok_bind]
          have hb : f.head.bucket ≤ 2 ^ 31 - 1 := (FastTextIndexer.new_eq_ok.mp hix).1
          have hnd : ¬ ws.Nodup := hbad.resolve_right (by omega)
          have : SubwordVocab.new ws f.head.config.minN f.head.config.maxN ix = .panic := by
            have : ¬ ws.length = (indexMap ws).len := fun h => hnd ((indexMap_len_iff ws).mp h.symm)
            unfold SubwordVocab.new SubwordVocab.newWithBoundaries
            simp [createIndices, this, Res.assert]
          rw [this]; rfl
        | err x =>
          unfold FastTextIndexer.new at hix
          cases hd : decide (f.head.config.bucket ≤ 2 ^ 31 - 1) <;> rw [hd] at hix <;> cases hix
        | panic => rfl
      rw [this]; rfl
    by_cases hbad : ¬ ws.Nodup ∨ 2 ^ 31 ≤ f.head.bucket
    · rcases hc with ⟨ht, -⟩ | ⟨m, k, ht, -⟩ | ⟨ht, -⟩
      · exact dup ht hbad
      · exact dup ht.split.1 hbad
      · exact dup ht.split.1 hbad
    · rw [not_or, Classical.not_not] at hbad
      obtain ⟨ix, v, hix, hv⟩ := build hvo hbad.1 (by omega)
      rcases hc with ⟨-, hb⟩ | ⟨m, k, ht, hfl, hm, hk, hal⟩ | ⟨ht, hmo, hcase⟩
      · exact absurd hb (by rw [not_or, Classical.not_not]; exact hbad)
      · have hq := hle ht (by simp [hne])
        have hq2 := ht.2
        obtain ⟨t0, ht⟩ := ht.split
        obtain ⟨t5, ht⟩ := ht.split
        obtain ⟨t6, t7⟩ := ht.split
        simp only [List.length_append] at hq2
        have hvb : f.vocabBytes = f.head.magicBytes ++ (f.head.configBytes ++ (f.head.vocabBytes ++
            f.entries.flatMap FtEntry.bytes)) := by
          simp [FtFile.vocabBytes, FtHead.bytes]
        have t0' : Took d pos (pos + f.vocabBytes.length) (f.head.magicBytes ++ (f.head.configBytes ++
            (f.head.vocabBytes ++ f.entries.flatMap FtEntry.bytes))) := hvb ▸ t0
        obtain ⟨t1, t0'⟩ := t0'.split
        obtain ⟨t2, t3⟩ := t0'.split
        have hl : f.vocabBytes.length = f.head.magicBytes.length + (f.head.configBytes.length +
            (f.head.vocabBytes ++ f.entries.flatMap FtEntry.bytes).length) := by
          simp [FtFile.vocabBytes, FtHead.bytes, List.length_append]
        unfold Embeddings.readFastText
        simp only [bind_apply]
        rw [ReadsAt.at' (readFtMagic_readsAt hvo.fits hvo.supported _) t1 (by omega)]
        simp only [Res.ok_bind]
        rw [ReadsAt.at' (readFtConfig_readsAt hvo.fits hvo.supported _) t2 (by omega)]
        simp only [Res.ok_bind]
        rw [ReadsAt.at' (readFtVocab_readsAt hvo hix hv _) t3 (by omega)]
        simp only [Res.ok_bind]
        rw [ReadsAt.at' (readFtQuantized_readsAt hfl _) t5 (by omega)]
        simp only [Res.ok_bind]
        have : readFtMatrix (F := F) d (pos + f.vocabBytes.length + (leBytes 1 f.flag).length) = .panic := by
          unfold readFtMatrix
          simp only [bind_apply]
          rw [ReadsAt.at' (.readU64 hm) t6 (by omega)]
          simp only [Res.ok_bind]
          rw [ReadsAt.at' (.readU64 hk) t7 (by omega)]
          simp only [Res.ok_bind]
          unfold allocArray
          rw [decide_eq_false (by simpa using hal)]
          rfl
        rw [this]; rfl
      · rw [readFastText_of hvo hmo hix hv ht, Res.map_eq_panic, finishFastText_eq_panic (c := f.head.config) hix hv]
        rcases hcase with h | h | ⟨ix', v', hix', hv', h⟩
        · exact .inl h
        · exact .inr (.inl (by simpa using h))
        · rw [hix] at hix'
          cases hix'
          rw [hv] at hv'
          cases hv'
          simp only [List.length_map]
          exact .inr (.inr h)

end

/-! ## C55: strict and lossy reading -/

section
variable {T F : Type} [Scalar F] [ScalarNat F] [ConfigToml T] [FloatBits F]

/-- **C55** (fastText). The two readers agree unless some token (data up to the next NUL) is not valid UTF-8, and then
the strict reader returns a format error. -/
theorem c55_fasttext (d : Bytes) (pos : Nat) :
    (Embeddings.readFastText false d pos : Res (Embeddings T FastTextSubwordVocab (NdArray F) F × Nat)) =
      Embeddings.readFastText true d pos ∨
    (∃ i, ∀ s, utf8 s ≠ (takeThrough 0 (d.drop i)).dropLast) ∧
      (Embeddings.readFastText false d pos : Res (Embeddings T FastTextSubwordVocab (NdArray F) F × Nat)) =
        .err .format := by
  have hentry : ∀ i, readFtWord false d i = readFtWord true d i ∨ readFtWord false d i = .err .format := by
    intro i
    unfold readFtWord
    simp only [bind_apply, readToken_apply]
    rcases decodeToken_agree (takeThrough 0 (d.drop i)).dropLast with h | ⟨-, h⟩
    · left; rw [h]
    · right; rw [h]; rfl
  have hbad : ∀ i, readFtWord false d i ≠ readFtWord true d i →
      ∀ s, utf8 s ≠ (takeThrough 0 (d.drop i)).dropLast := by
    intro i hne s hs
    apply hne
    unfold readFtWord
    simp only [bind_apply, readToken_apply]
    rw [(c55_decode _).2.1 ⟨s, hs⟩]
  unfold Embeddings.readFastText
  simp only [bind_apply]
  cases h1 : Embeddings.readFtMagic d pos with
  | err x => left; rfl
  | panic => left; rfl
  | ok r1 =>
    simp only [Res.ok_bind]
    cases h2 : readFtConfig d r1.2 with
    | err x => left; rfl
    | panic => left; rfl
    | ok r2 =>
      simp only [Res.ok_bind]
      unfold readFtVocab
      simp only [bind_apply]
      cases h3 : readFtVocabHead d r2.2 with
      | err x => left; rfl
      | panic => left; rfl
      | ok r3 =>
        simp only [Res.ok_bind]
        cases h4 : alloc 24 r3.1 d r3.2 with
        | err x => left; rfl
        | panic => left; rfl
        | ok r4 =>
          simp only [Res.ok_bind]
          rcases replicateM_congr hentry r3.1 r4.2 with h | ⟨h, i, hi, -⟩
          · left; rw [h]
          · right; exact ⟨⟨i, hbad i hi⟩, by rw [h]; rfl⟩

/-! ## C61: the vectors of the words -/

/-- **C61**. After a fastText model is read, the rows of the n-grams are those of the file. The row of a word is the
average of the word's row in the file and the rows of its n-grams in the file, or just the word's row if it has
no n-grams; this is divided by its norm, and the norm is kept. -/
theorem c61_rows (lossy : Bool) (d : Bytes) (pos q : Nat) (e : Embeddings T FastTextSubwordVocab (NdArray F) F)
    (h : Embeddings.readFastText lossy d pos = .ok (e, q)) :
    ∃ (f : FtFile) (norms : List F), Took d pos q f.bytes ∧ e.norms = some ⟨norms⟩ ∧
      e.storage.inner.rows.length = f.rows.length ∧ norms.length = e.vocab.words.length ∧
      (∀ i, e.vocab.words.length ≤ i →
        e.storage.inner.rows[i]? = (f.rows.map (List.map FloatBits.ofBits))[i]?) ∧
      (∀ (i : Nat) (w : Str), e.vocab.words[i]? = some w → ∃ (row avg : List F) (is : Option (List Nat)),
        (f.rows.map (List.map FloatBits.ofBits))[i]? = some row ∧
        e.vocab.subwordIndices w = .ok is ∧
        (is = none → avg = row) ∧
        (∀ js, is = some js → ∃ subs : List (List F),
          js.map (fun j => (f.rows.map (List.map FloatBits.ofBits))[j]?) = subs.map some ∧
          (∀ j ∈ js, e.vocab.words.length ≤ j) ∧
          avg = (subs.foldl (List.zipWith Scalar.add) row).map
            (Scalar.div · (ScalarNat.ofNat (js.length + 1)))) ∧
        norms[i]? = some (l2Normalize avg).2 ∧ e.storage.inner.rows[i]? = some (l2Normalize avg).1) := by
  obtain ⟨f, ws, ht, hvo, hmo, hrl, hd, ⟨ix, hix, hv⟩, -, norms, hn, -, hr⟩ := (c53_accepts lossy d pos q e).mp h
  obtain ⟨-, hw, -⟩ := ft_vocab_fields hix hv
  rw [hw]
  refine ⟨f, norms, ht, hn, by simpa using hr.rowsLen, hr.normsLen, hr.subwords, fun i w hi => ?_⟩
  obtain ⟨out, norm, h1, h2, row, avg, h3, h4, rfl, rfl⟩ := hr.words i w hi
  rcases h4 with ⟨h5, rfl⟩ | ⟨is, subs, h5, h6, rfl⟩
  · exact ⟨_, _, none, h3, h5, fun _ => rfl, fun _ hc => (by cases hc), h2, h1⟩
  · refine ⟨row, _, some is, h3, h5, fun hc => (by cases hc), ?_, h2, h1⟩
    rintro js ⟨⟩
    obtain ⟨o, ho, hin⟩ := ft_subwords hix hv w (hd w (List.mem_of_getElem? hi))
    rw [h5] at ho
    cases ho
    refine ⟨subs, h6, fun j hj => (hin is rfl j hj).1, ?_⟩
    have : is.length = subs.length := by simpa using congrArg List.length h6
    rw [this]
    rfl

end

/-! ## Examples and counterexamples -/

attribute [local instance] exampleScalar

/-- Numbers as bit patterns, only for examples. -/
@[instance_reducible] def exampleScalarNat : ScalarNat F32 := ⟨UInt32.ofNat⟩

/-- Configurations as metadata, only for examples. -/
@[instance_reducible] def exampleConfigToml : ConfigToml FtConfig := ⟨some⟩

attribute [local instance] exampleScalarNat exampleConfigToml

/-- A model with two words and three buckets. -/
def exampleFtHead : FtHead :=
  { magic := 793712314, version := 12, dims := 2, windowSize := 5, epoch := 5, minCount := 5, neg := 5, wordNgrams := 1,
    loss := 2, model := 2, bucket := 3, minN := 3, maxN := 6, lrUpdateRate := 100, samplingThreshold := 0, size := 2,
    nWords := 2, nLabels := 0, nTokens := 10, prune := 2 ^ 64 - 1 }

/-- The same as a whole file. -/
def exampleFtFile : FtFile :=
  { head := exampleFtHead, entries := [⟨[97], 7, 0⟩, ⟨[98, 99], 3, 0⟩], flag := 0, cols := 2,
    rows := [[1, 2], [3, 4], [5, 6], [7, 8], [9, 10]] }

theorem exampleFtHead_fits : exampleFtHead.Fits := by
  constructor <;> decide

theorem exampleFtHead_supported : exampleFtHead.Supported := by
  constructor <;> decide

theorem exampleFtFile_vocabOk : exampleFtFile.VocabOk false [['a'], ['b', 'c']] := by
  refine ⟨exampleFtHead_fits, exampleFtHead_supported, rfl, ?_, ?_⟩
  · intro e he
    simp only [exampleFtFile, List.mem_cons, List.not_mem_nil, or_false] at he
    rcases he with rfl | rfl <;> exact ⟨by decide, by decide, rfl⟩
  · decide +kernel

theorem exampleFtFile_matrixOk : exampleFtFile.MatrixOk := by
  constructor <;> decide

/-- The example file is accepted, so the hypotheses of `c61_rows` can be met; those of `c53_accepts` are met by
`exampleFtFile_vocabOk` and `exampleFtFile_matrixOk`. -/
example : (Embeddings.readFastText false exampleFtFile.bytes 0 :
      Res (Embeddings FtConfig FastTextSubwordVocab (NdArray F32) F32 × Nat)).map
        (fun r => (r.1.vocab.words, r.1.vocab.minN, r.1.vocab.maxN, r.1.storage.inner.nrows, r.2)) =
    .ok ([['a'], ['b', 'c']], 3, 6, 5, exampleFtFile.bytes.length) := by
  decide +kernel

/-- The hypotheses of `c53_unsupported`: a file of version 13. -/
example : FtHead.Fits { exampleFtHead with version := 13 } ∧ ¬ FtHead.Supported { exampleFtHead with version := 13 } ∧
    Took (FtHead.bytes { exampleFtHead with version := 13 } ++ [1, 2, 3]) 0
      (FtHead.bytes { exampleFtHead with version := 13 }).length (FtHead.bytes { exampleFtHead with version := 13 }) := by
  refine ⟨by constructor <;> decide, fun h => absurd h.version (by decide), by decide +kernel, by decide +kernel⟩

/-- The hypotheses of `c53_entry`: the second entry is a label, or not valid UTF-8. -/
example : (∀ e ∈ [(⟨[97], 7, 0⟩ : FtEntry)], e.IsWord) ∧
    [(⟨[97], 7, 0⟩ : FtEntry)].map (fun e => decodeToken false e.word) = [['a']].map .ok ∧
    1 < exampleFtHead.size ∧
    (0 : UInt8) ∉ (⟨[98], 7, 1⟩ : FtEntry).word ∧ (⟨[98], 7, 1⟩ : FtEntry).kind ≠ 0 ∧
    decodeToken false [255] = .err .format ∧
    (∀ e : FtEntry, Took (exampleFtHead.bytes ++ ([(⟨[97], 7, 0⟩ : FtEntry)].flatMap FtEntry.bytes ++ e.bytes)) 0
      (exampleFtHead.bytes ++ ([(⟨[97], 7, 0⟩ : FtEntry)].flatMap FtEntry.bytes ++ e.bytes)).length
      (exampleFtHead.bytes ++ ([(⟨[97], 7, 0⟩ : FtEntry)].flatMap FtEntry.bytes ++ e.bytes))) := by
  refine ⟨?_, by decide +kernel, by decide, by decide, by decide, by decide +kernel, fun e => ⟨by simp, by simp⟩⟩
  intro e he
  simp only [List.mem_cons, List.not_mem_nil, or_false] at he
  subst he
  exact ⟨by decide, by decide, rfl⟩

/-- The hypotheses of `c53_quantized_partial` and `c53_shape_partial`: the example file with the flag set, and with a row too
many. -/
example : FtFile.VocabOk { exampleFtFile with flag := 1 } false [['a'], ['b', 'c']] ∧
    [['a'], ['b', 'c']].Nodup ∧ exampleFtFile.head.bucket < 2 ^ 31 ∧
    FtFile.VocabOk { exampleFtFile with rows := [0, 0] :: exampleFtFile.rows } false [['a'], ['b', 'c']] ∧
    FtFile.MatrixOk { exampleFtFile with rows := [0, 0] :: exampleFtFile.rows } := by
  have h := exampleFtFile_vocabOk
  refine ⟨⟨h.fits, h.supported, h.size, h.isWord, h.decode⟩, by decide, by decide,
    ⟨h.fits, h.supported, h.size, h.isWord, h.decode⟩, ?_⟩
  constructor <;> decide

/-- **C53** is false as stated: with too few rows the reader panics before it looks at the shape. -/
theorem c53_shape_false :
    ∃ (f : FtFile) (ws : List Str), f.VocabOk false ws ∧ f.MatrixOk ∧ ws.Nodup ∧
      f.rows.length ≠ ws.length + f.head.bucket ∧
      (Embeddings.readFastText false f.bytes 0 :
        Res (Embeddings FtConfig FastTextSubwordVocab (NdArray F32) F32 × Nat)) = .panic := by
  have h := exampleFtFile_vocabOk
  refine ⟨{ exampleFtFile with rows := [[1, 2], [3, 4]] }, _, ⟨h.fits, h.supported, h.size, h.isWord, h.decode⟩, ?_,
    by decide, by decide, by decide +kernel⟩
  constructor <;> decide

/-- **C53** is false as stated: a quantized model with a repeated word makes the reader panic. So does one with 2^31
buckets. -/
theorem c53_quantized_false :
    (∃ (f : FtFile) (ws : List Str), f.VocabOk false ws ∧ f.flag = 1 ∧
      (Embeddings.readFastText false f.bytes 0 :
        Res (Embeddings FtConfig FastTextSubwordVocab (NdArray F32) F32 × Nat)) = .panic) ∧
    ∃ (f : FtFile) (ws : List Str), f.VocabOk false ws ∧ ws.Nodup ∧ f.flag = 1 ∧
      (Embeddings.readFastText false f.bytes 0 :
        Res (Embeddings FtConfig FastTextSubwordVocab (NdArray F32) F32 × Nat)) = .panic := by
  have h := exampleFtFile_vocabOk
  constructor
  · refine ⟨{ exampleFtFile with entries := [⟨[97], 7, 0⟩, ⟨[97], 3, 0⟩], flag := 1 }, [['a'], ['a']],
      ⟨h.fits, h.supported, rfl, ?_, by decide +kernel⟩, rfl, by decide +kernel⟩
    intro e he
    simp only [List.mem_cons, List.not_mem_nil, or_false] at he
    rcases he with rfl | rfl <;> exact ⟨by decide, by decide, rfl⟩
  · refine ⟨{ exampleFtFile with head := { exampleFtHead with bucket := 2 ^ 31 }, flag := 1 }, _,
      ⟨?_, ?_, h.size, h.isWord, h.decode⟩, by decide, rfl, by decide +kernel⟩
    · constructor <;> decide
    · constructor <;> decide

/-- A complete, well-formed model that fastText writes when it is trained without n-grams (`minn` and `maxn` 0) makes
the reader panic. -/
theorem c53_no_ngrams_panics :
    ∃ (f : FtFile) (ws : List Str), f.VocabOk false ws ∧ f.MatrixOk ∧ ws.Nodup ∧
      f.rows.length = ws.length + f.head.bucket ∧ f.head.minN = 0 ∧ f.head.maxN = 0 ∧ f.head.bucket = 0 ∧
      (Embeddings.readFastText false f.bytes 0 :
        Res (Embeddings FtConfig FastTextSubwordVocab (NdArray F32) F32 × Nat)) = .panic := by
  have h := exampleFtFile_vocabOk
  refine ⟨{ exampleFtFile with
        head := { exampleFtHead with minN := 0, maxN := 0, bucket := 0 }
        rows := [[1, 2], [3, 4]] }, _, ⟨?_, ?_, h.size, h.isWord, h.decode⟩, ?_, by decide, rfl, rfl, rfl, rfl,
      by decide +kernel⟩
  all_goals constructor <;> decide

/-- Invalid UTF-8 in a word: the strict reader reports an error, the lossy one inserts a replacement character. -/
example :
    (Embeddings.readFastText false
      (FtFile.bytes { exampleFtFile with entries := [⟨[97, 255], 7, 0⟩, ⟨[98, 99], 3, 0⟩] }) 0 :
      Res (Embeddings FtConfig FastTextSubwordVocab (NdArray F32) F32 × Nat)) = .err .format ∧
    (Embeddings.readFastText true
      (FtFile.bytes { exampleFtFile with entries := [⟨[97, 255], 7, 0⟩, ⟨[98, 99], 3, 0⟩] }) 0 :
      Res (Embeddings FtConfig FastTextSubwordVocab (NdArray F32) F32 × Nat)).map (·.1.vocab.words) =
      .ok [['a', replacementChar], ['b', 'c']] := by
  decide +kernel

end FF
