import Verif.Model.Floret
import Verif.Lemmas.NoPanic
import Verif.Props.Text

/-!
# The floret text format (C51, C60)
-/

namespace FF

open Rd Embeddings

section Floret
variable {F : Type} [FloatText F]

theorem joinFloats_noCr {v : List F} (h : ∀ x ∈ v, FloatText.Faithful x) :
    ∀ c ∈ joinFloats v, c.toNat ≠ 13 := by
  induction v with
  | nil => simp [joinFloats]
  | cons x v ih =>
    have hx : ∀ c ∈ FloatText.print x, c.toNat ≠ 13 := by
      intro c hc he
      have := (h x (by simp)).1.2 c hc
      simp [isAsciiWs, he] at this
    cases v with
    | nil => simpa [joinFloats] using hx
    | cons y v =>
      intro c hc
      simp only [joinFloats, List.mem_append, List.mem_cons] at hc
      rcases hc with hc | rfl | hc
      · exact hx c hc
      · decide
      · exact ih (fun z hz => h z (by simp [hz])) c hc

/-- One line of the matrix in a floret file, without line feed. -/
def floretText (p : List F × Nat) : Str := printNat p.2 ++ ' ' :: joinFloats p.1

theorem floretText_clean {p : List F × Nat} (h : ∀ x ∈ p.1, FloatText.Faithful x) :
    (10 : UInt8) ∉ utf8 (floretText p) ∧ (utf8 (floretText p)).getLast? ≠ some 13 := by
  refine ⟨textRow_noNl (isToken_printNat p.2) h, fun hl => ?_⟩
  have := List.mem_of_getLast? hl
  refine not_mem_utf8_of (b := 13) (by decide) (fun c hc => ?_) this
  rcases List.mem_append.mp hc with hc | hc
  · have := printNat_digits _ c hc
    simp only [isDigitChar, Bool.and_eq_true, decide_eq_true_eq] at this
    have h13 : (13 : UInt8).toNat = 13 := rfl
    omega
  · rcases List.mem_cons.mp hc with rfl | hc
    · decide
    · exact joinFloats_noCr h c hc

theorem readFloretLine_eq {p : List F × Nat} {k : Nat} (h : ∀ x ∈ p.1, FloatText.Faithful x) (hk : p.1.length = k) :
    readFloretLine k (utf8 (floretText p)) = .ok p.1 := by
  unfold readFloretLine floretText
  rw [utf8Decode_utf8, Res.ofOption_some, Res.ok_bind, parts_cons (isToken_printNat p.2), parts_joinFloats h]
  simp only [List.drop_succ_cons, List.drop_zero]
  rw [mapM_parse_print h, Res.ok_bind, if_neg (by simpa using hk)]

theorem readFloretLines_eq {rows : List (List F × Nat)} {k : Nat} (h : ∀ p ∈ rows, ∀ x ∈ p.1, FloatText.Faithful x)
    (hk : ∀ p ∈ rows, p.1.length = k) :
    (bufLines (rows.flatMap fun p => utf8 (floretText p) ++ [10])).mapM (readFloretLine (F := F) k) =
      .ok (rows.map (·.1)) := by
  have : bufLines (rows.flatMap fun p => utf8 (floretText p) ++ [10]) = rows.map fun p => utf8 (floretText p) := by
    rw [← bufLines_flatMap (ls := rows.map fun p => utf8 (floretText p))]
    · rw [List.flatMap_map]
    · intro l hl
      obtain ⟨p, hp, rfl⟩ := List.mem_map.mp hl
      exact floretText_clean (h p hp)
  rw [this]
  clear this
  induction rows with
  | nil => rfl
  | cons p rows ih =>
    simp only [List.map_cons, List.mapM_cons]
    rw [readFloretLine_eq (h p (by simp)) (hk p (by simp)), Res.ok_bind,
      ih (fun q hq => h q (by simp [hq])) (fun q hq => hk q (by simp [hq]))]
    rfl

omit [FloatText F] in
theorem readFloretHead_readsAt (h : FloretHead) (hb : h.nBuckets ≤ usizeMax) (he : h.embedLen ≤ usizeMax)
    (hm : h.minN < 2 ^ 32) (hM : h.maxN < 2 ^ 32) (hh : h.nHashes < 2 ^ 32) (hs : h.seed ≤ usizeMax)
    (hbow : ' ' ∉ h.bow) (heow : '\n' ∉ h.eow) :
    ReadsAt readFloretHead 0
      ((utf8 (printNat h.nBuckets) ++ [32]) ++ ((utf8 (printNat h.embedLen) ++ [32]) ++
      ((utf8 (printNat h.minN) ++ [32]) ++ ((utf8 (printNat h.maxN) ++ [32]) ++
      ((utf8 (printNat h.nHashes) ++ [32]) ++ ((utf8 (printNat h.seed) ++ [32]) ++
      ((utf8 h.bow ++ [32]) ++ (utf8 h.eow ++ [10])))))))) h := by
  have hu : 2 ^ 32 ≤ usizeMax := by decide
  unfold readFloretHead
  refine ReadsAt.bind (readNumber_readsAt hb (by decide) _) ?_
  refine ReadsAt.bind (readNumber_readsAt he (by decide) _) ?_
  refine ReadsAt.bind (readNumber_readsAt (by omega) (by decide) _) ?_
  refine ReadsAt.bind (readNumber_readsAt (by omega) (by decide) _) ?_
  refine ReadsAt.bind (readNumber_readsAt (by omega) (by decide) _) ?_
  refine ReadsAt.bind (readNumber_readsAt hs (by decide) _) ?_
  refine ReadsAt.bind (readToken_readsAt false (not_mem_utf8_of (by decide) fun c hc hcc => ?_) _) ?_
  · exact hbow (by rwa [show c = ' ' from Char.ext (UInt32.toNat_inj.mp hcc)] at hc)
  rw [← List.append_nil (utf8 h.eow ++ [10])]
  refine ReadsAt.bind (readToken_readsAt false (not_mem_utf8_of (by decide) fun c hc hcc => ?_) _) ?_
  · exact heow (by rwa [show c = '\n' from Char.ext (UInt32.toNat_inj.mp hcc)] at hc)
  rw [Nat.mod_eq_of_lt hm, Nat.mod_eq_of_lt hM, Nat.mod_eq_of_lt hh]
  exact ReadsAt.pure _ _

variable {T : Type} [Scalar F]

omit [Scalar F] in
/-- **C51.** Floret embeddings written as text are read back: the same n-gram lengths, buckets, hashes, seed and
boundary markers, and bit for bit the bucket vectors. Words of the vocabulary (and their vectors) are not written;
without words, the vocabulary and the matrix come back unchanged. Needed: the first marker has no space and the
second no line feed; lengths fit into 32 bits and are in order; at least one component; components survive printing
and parsing. -/
theorem c51_roundtrip {T' : Type} (e : Embeddings T FloretSubwordVocab (NdArray F) F) (nb nh : Nat) (seed : UInt32)
    (ix : FloretIndexer) (hix : FloretIndexer.new nb nh seed = .ok ix) (ws : List Str) (m M : Nat) (bow eow : Str)
    (hv : SubwordVocab.newWithBoundaries ws m M ix bow eow = .ok e.vocab)
    (k : Nat) (rows : List (List F)) (hst : e.storage.inner = ⟨k, rows⟩) (hrows : rows.length = ws.length + nb)
    (hk : ∀ r ∈ rows, r.length = k) (hk0 : 0 < k) (hmM : m ≤ M) (hM : M < 2 ^ 32)
    (hbow : ' ' ∉ bow) (heow : '\n' ∉ eow) (hmem : 4 * (nb * k) ≤ isizeMax)
    (hval : ∀ r ∈ rows.drop ws.length, ∀ x ∈ r, FloatText.Faithful x) :
    e.writeFloret.Good ∧
    ∃ e' : Embeddings T' FloretSubwordVocab (NdArray F) F,
      Embeddings.readFloret e.writeFloret.bytes 0 = .ok e' ∧
      SubwordVocab.newWithBoundaries [] m M ix bow eow = .ok e'.vocab ∧
      e'.storage.inner = ⟨k, rows.drop ws.length⟩ ∧ e'.norms = none ∧ e'.metadata = none ∧
      (ws = [] → e'.vocab = e.vocab ∧ e'.storage.inner = e.storage.inner) := by
  obtain ⟨hnd, ⟨ub, hub, hub'⟩, hv'⟩ := SubwordVocab.newWithBoundaries_eq_ok.mp hv
  obtain ⟨hh, hb0, hix'⟩ := FloretIndexer.new_eq_ok.mp hix
  have hub2 : ub = nb := by rw [hix'] at hub; exact (Res.ok.inj hub).symm
  subst hub2
  have hil : (indexMap ws).len = ws.length := ((indexMap_len_iff ws).mpr hnd)
  have hwl : Vocab.wordsLen e.vocab = ws.length := by
    rw [hv']; exact hil
  have hvl : Vocab.vocabLen e.vocab = .ok (ws.length + ub) := by
    rw [hv']; simp [Vocab.vocabLen, hub, hil]
  have hdims : e.dims = k := by
    unfold Embeddings.dims; simp [Storage.shape, hst, Mat.dim]
  have hvnew : SubwordVocab.newWithBoundaries [] m M ix bow eow = .ok ⟨bow, eow, ix, indexMap [], [], m, M⟩ :=
    SubwordVocab.newWithBoundaries_eq_ok.mpr ⟨List.nodup_nil, ⟨ub, hub, by simp; omega⟩, rfl⟩
  have e1 : e.vocab.minN = m := by rw [hv']
  have e2 : e.vocab.maxN = M := by rw [hv']
  have e3 : e.vocab.bow = bow := by rw [hv']
  have e4 : e.vocab.eow = eow := by rw [hv']
  have e5 : e.vocab.indexer.nHashes = nh := by rw [hv', hix']
  have e6 : e.vocab.indexer.seed = seed := by rw [hv', hix']
  have hhead : e.floretHeadLine = W.emit
      ((utf8 (printNat ub) ++ [32]) ++ ((utf8 (printNat k) ++ [32]) ++
      ((utf8 (printNat m) ++ [32]) ++ ((utf8 (printNat M) ++ [32]) ++
      ((utf8 (printNat nh) ++ [32]) ++ ((utf8 (printNat seed.toNat) ++ [32]) ++
      ((utf8 bow ++ [32]) ++ (utf8 eow ++ [10])))))))) := by
    unfold Embeddings.floretHeadLine
    rw [hvl, hwl, hdims, e1, e2, e3, e4, e5, e6]
    simp [W.ofRes]
  have hassert : Res.assert (Vocab.wordsLen e.vocab ≤ e.storage.inner.nrows) = .ok () := by
    rw [hwl, hst]; simp [Res.assert, Mat.nrows, hrows]
  have hgood : ∀ p ∈ (rows.drop ws.length).zipIdx, (floretRowLine p).Good := fun _ _ => W.good_emit _
  have hg1 : (W.done (Res.assert (Vocab.wordsLen e.vocab ≤ e.storage.inner.nrows))).Good := by
    rw [hassert]; rfl
  have hg0 : e.floretHeadLine.Good := by rw [hhead]; exact W.good_emit _
  have hst' : e.storage.inner.rows = rows := by rw [hst]
  have hw : e.writeFloret.Good := by
    unfold Embeddings.writeFloret
    rw [hwl] at hg1 ⊢
    rw [hst']
    exact W.good_seq (W.good_seq hg0 hg1) (W.good_each hgood)
  refine ⟨hw, ⟨none, ⟨⟨k, rows.drop ws.length⟩⟩, ⟨bow, eow, ix, indexMap [], [], m, M⟩, none⟩, ?_, hvnew, rfl, rfl, rfl, ?_⟩
  rotate_left
  · rintro rfl
    exact ⟨hv'.symm, by rw [hst]; rfl⟩
  have hbytes : e.writeFloret.bytes =
      ((utf8 (printNat ub) ++ [32]) ++ ((utf8 (printNat k) ++ [32]) ++
      ((utf8 (printNat m) ++ [32]) ++ ((utf8 (printNat M) ++ [32]) ++
      ((utf8 (printNat nh) ++ [32]) ++ ((utf8 (printNat seed.toNat) ++ [32]) ++
      ((utf8 bow ++ [32]) ++ (utf8 eow ++ [10])))))))) ++
      (rows.drop ws.length).zipIdx.flatMap fun p => utf8 (floretText p) ++ [10] := by
    unfold Embeddings.writeFloret
    rw [W.bytes_seq (W.good_seq hg0 hg1), W.bytes_seq hg0, hwl, hst', W.bytes_each hgood, hhead, W.bytes_emit]
    have : (W.done (Res.assert (ws.length ≤ e.storage.inner.nrows))).bytes = [] := rfl
    rw [this, List.append_nil]
    simp only [floretRowLine, W.bytes_emit]
    rfl
  have hu : isizeMax ≤ usizeMax := by decide
  have hkle : k ≤ ub * k := Nat.le_mul_of_pos_left _ (by omega)
  have hble : ub ≤ ub * k := Nat.le_mul_of_pos_right _ hk0
  have hread := readFloretHead_readsAt ⟨ub, k, m, M, nh, seed.toNat, bow, eow⟩ (by show ub ≤ _; omega)
    (by show k ≤ _; omega) (by show m < _; omega) hM (by show nh < _; omega)
    (by have := seed.toNat_lt; show seed.toNat ≤ _; unfold usizeMax; omega) hbow heow []
    ((rows.drop ws.length).zipIdx.flatMap fun p => utf8 (floretText p) ++ [10]) rfl
  rw [hbytes]
  unfold Embeddings.readFloret
  rw [List.nil_append] at hread
  rw [hread, Res.ok_bind]
  dsimp only
  have hcheck : checkFloretHead ⟨ub, k, m, M, nh, seed.toNat, bow, eow⟩ = .ok () := by
    unfold checkFloretHead
    rw [if_neg hb0, if_neg (by show ¬ k = 0; omega), if_neg (by show ¬ m > M; omega), if_neg (by simp; omega)]
  have hzip : ∀ p ∈ (rows.drop ws.length).zipIdx, p.1 ∈ rows.drop ws.length := fun p hp =>
    (List.mem_zipIdx' hp).2 ▸ List.getElem_mem _
  have hlines := readFloretLines_eq (rows := (rows.drop ws.length).zipIdx) (k := k)
    (fun p hp => hval _ (hzip p hp)) (fun p hp => hk _ (List.mem_of_mem_drop (hzip p hp)))
  have hfst : (rows.drop ws.length).zipIdx.map (·.1) = rows.drop ws.length := by simp
  have hdl : (rows.drop ws.length).length = ub := by rw [List.length_drop]; omega
  have hflat : (rows.drop ws.length).flatten.length = ub * k := by
    rw [length_flatten_of (k := k) fun l hl => hk l (List.mem_of_mem_drop hl), hdl]
  have hmat : fromShapeVec (ub, k) (rows.drop ws.length).flatten = .ok ⟨k, rows.drop ws.length⟩ := by
    unfold fromShapeVec
    rw [if_pos hflat]
    have := chunks_flatten (rows.drop ws.length) k (fun l hl => hk l (List.mem_of_mem_drop hl)) []
    rw [List.append_nil, hdl] at this
    simp only [Mat.ofFlat, this]
  have hseed : UInt32.ofNat seed.toNat = seed := by simp
  rw [hcheck, Res.ok_bind, show Res.assert (4 * (ub * k) ≤ isizeMax) = .ok () by simp [Res.assert, hmem], Res.ok_bind,
    Nat.zero_add, List.drop_left' rfl, hlines, Res.ok_bind, hfst, hmat, Res.ok_bind, hseed, hix, Res.ok_bind, hvnew,
    Res.ok_bind, newWithMaybeNorms_eq_ok]
  refine ⟨?_, rfl⟩
  rw [show Vocab.vocabLen (⟨bow, eow, ix, indexMap [], [], m, M⟩ : FloretSubwordVocab) = .ok (0 + ub) by
    simp [Vocab.vocabLen, hub]; rfl, Nat.zero_add]
  simp [Storage.shape, Mat.dim, Mat.nrows, hrows]

/-! ## C60: malformed floret files -/

omit [FloatText F] [Scalar F] in
theorem utf8_append_cr {t : Str} {l : Bytes} (h : utf8 t = l ++ [13]) : ∃ s, t = s ++ ['\r'] ∧ utf8 s = l := by
  rcases List.eq_nil_or_concat t with rfl | ⟨s, c, rfl⟩
  · simp at h
  · have hc : utf8 [c] = String.utf8EncodeChar c := by simp
    rw [List.concat_eq_append, utf8_append, hc] at h
    have hlast := congrArg List.getLast? h
    rw [List.getLast?_append, List.getLast?_append] at hlast
    have hm : (13 : UInt8) ∈ String.utf8EncodeChar c := by
      cases hg : (String.utf8EncodeChar c).getLast? with
      | none =>
        have := List.getLast?_eq_none_iff.mp hg
        exact absurd (hc.trans this) (utf8_ne_nil (by simp))
      | some b =>
        rw [hg] at hlast
        simp only [List.getLast?_singleton, Option.some.injEq, Option.some_or] at hlast
        subst hlast
        exact List.mem_of_getLast? hg
    obtain ⟨h1, h2⟩ := mem_utf8EncodeChar_ascii hm (by decide)
    have hcc : c = '\r' := Char.ext (UInt32.toNat_inj.mp h1)
    rw [h2] at h
    exact ⟨s, by rw [hcc, List.concat_eq_append], List.append_cancel_right h⟩

omit [FloatText F] [Scalar F] in
theorem utf8Decode_cr (l : Bytes) : utf8Decode (l ++ [13]) = (utf8Decode l).map (· ++ ['\r']) := by
  cases h : utf8Decode l with
  | some s =>
    rw [← utf8_of_utf8Decode h, Option.map_some]
    have : utf8 s ++ [13] = utf8 (s ++ ['\r']) := by rw [utf8_append]; rfl
    rw [this, utf8Decode_utf8]
  | none =>
    cases h' : utf8Decode (l ++ [13]) with
    | none => rfl
    | some t =>
      obtain ⟨s, -, hs⟩ := utf8_append_cr (utf8_of_utf8Decode h')
      rw [← hs, utf8Decode_utf8] at h
      cases h

omit [FloatText F] [Scalar F] in
theorem splitBy_append_sep {p : Char → Bool} {c : Char} (hc : p c = true) (s : Str) :
    splitBy p (s ++ [c]) = splitBy p s ++ [[]] := by
  induction s with
  | nil => simp [splitBy, hc]
  | cons a s ih =>
    simp only [List.cons_append, splitBy]
    by_cases ha : p a = true
    · simp [ha, ih]
    · rw [if_neg ha, if_neg ha, ih]
      cases hs : splitBy p s with
      | nil => exact absurd hs (splitBy_ne_nil p s)
      | cons x xs => rfl

omit [FloatText F] [Scalar F] in
theorem parts_cr (s : Str) : parts (s ++ ['\r']) = parts s := by
  unfold parts
  rw [splitBy_append_sep (by decide)]
  simp

omit [Scalar F] in
theorem readFloretLine_cr (k : Nat) (l : Bytes) :
    readFloretLine (F := F) k (stripLast 13 l) = readFloretLine k l := by
  unfold stripLast
  split
  · rename_i h
    obtain ⟨l', rfl⟩ : ∃ l', l = l' ++ [13] := by
      rcases List.eq_nil_or_concat l with rfl | ⟨l', b, rfl⟩
      · simp at h
      · simp only [List.concat_eq_append, List.getLast?_append, List.getLast?_singleton, Option.some_or,
          Option.some.injEq] at h
        exact ⟨l', by rw [h, List.concat_eq_append]⟩
    rw [List.dropLast_concat]
    unfold readFloretLine
    rw [utf8Decode_cr]
    cases utf8Decode l' with
    | none => rfl
    | some s => simp only [Option.map_some, Res.ofOption_some, Res.ok_bind, parts_cr]
  · rfl

omit [Scalar F] in
theorem readFloretLines_text (k : Nat) (bs : Bytes) :
    (bufLines bs).mapM (readFloretLine (F := F) k) = (textLines bs).mapM (readFloretLine k) := by
  unfold bufLines textLines
  rw [List.mapM_map, List.mapM_map]
  refine Res.mapM_congr' fun l _ => ?_
  simp only [Function.comp]
  split
  · rename_i h
    rw [readFloretLine_cr]
    unfold stripLast
    rw [if_pos h]
  · rename_i h
    unfold stripLast
    rw [if_neg h]

/-- A line of a floret file carries these components: it is valid text, has a first token (the bucket), and its
other tokens parse to the components. -/
def FloretLineHas (l : Bytes) (row : List F) : Prop :=
  ∃ s t ps, utf8 s = l ∧ TokensOf s (t :: ps) ∧ ps.map FloatText.parse = row.map some

omit [Scalar F] in
theorem readFloretLine_iff {k : Nat} (hk : 0 < k) {l : Bytes} {row : List F} :
    readFloretLine k l = .ok row ↔ FloretLineHas l row ∧ row.length = k := by
  unfold readFloretLine FloretLineHas
  constructor
  · intro h
    obtain ⟨s, hs, h⟩ := Res.bind_eq_ok.mp h
    obtain ⟨xs, hxs, h⟩ := Res.bind_eq_ok.mp h
    split at h
    · cases h
    · rename_i hlen
      cases h
      have hlen : row.length = k := by simpa using hlen
      refine ⟨?_, hlen⟩
      have hp := mapM_parse_iff.mp hxs
      cases hps : parts s with
      | nil =>
        rw [hps] at hp
        have := congrArg List.length hp
        simp at this; omega
      | cons t ps =>
        rw [hps] at hp
        cases hd : utf8Decode l with
        | none => rw [hd] at hs; cases hs
        | some s' =>
          rw [hd] at hs; cases hs
          exact ⟨s, t, ps, utf8_of_utf8Decode hd, (parts_spec s _).mp hps, hp⟩
  · rintro ⟨⟨s, t, ps, rfl, ht, hp⟩, hlen⟩
    rw [utf8Decode_utf8, Res.ofOption_some, Res.ok_bind, (parts_spec s _).mpr ht]
    simp only [List.drop_succ_cons, List.drop_zero]
    rw [mapM_parse_iff.mpr hp, Res.ok_bind, if_neg (by simpa using hlen)]

omit [Scalar F] in
theorem readFloretLine_no_panic (k : Nat) (l : Bytes) : readFloretLine (F := F) k l ≠ .panic := by
  unfold readFloretLine
  cases utf8Decode l with
  | none => simp [Res.ofOption]
  | some s =>
    rw [Res.ofOption_some, Res.ok_bind]
    rcases mapM_parse_outcome (F := F) ((parts s).drop 1) with ⟨xs, h⟩ | h
    · rw [h, Res.ok_bind]; split <;> simp
    · rw [h]; simp

omit [FloatText F] [Scalar F] in
theorem checkFloretHead_iff {h : FloretHead} : checkFloretHead h = .ok () ↔
    h.nBuckets ≠ 0 ∧ h.embedLen ≠ 0 ∧ h.minN ≤ h.maxN ∧ 1 ≤ h.nHashes ∧ h.nHashes ≤ 4 := by
  unfold checkFloretHead
  by_cases h1 : h.nBuckets = 0
  · simp [h1]
  · by_cases h2 : h.embedLen = 0
    · simp [h1, h2]
    · by_cases h3 : h.minN > h.maxN
      · rw [if_neg h1, if_neg h2, if_pos h3]
        simp; omega
      · rw [if_neg h1, if_neg h2, if_neg h3]
        by_cases h4 : 1 ≤ h.nHashes ∧ h.nHashes ≤ 4
        · rw [if_neg (by simpa using h4)]
          simp [h1, h2, h4]; omega
        · rw [if_pos h4]
          simp; omega

omit [Scalar F] in
/-- **C60** (accepted files). A floret file is accepted exactly if the first line can be read, names at least one
bucket and one dimension, ordered n-gram lengths and one to four hashes, the table fits into memory, the file has
one line per bucket, and every line has, after its first token, exactly the promised number of components, all of
them numbers. The result has these components and the parameters of the first line, and no words. -/
theorem c60_accepts (d : Bytes) (pos : Nat) (e : Embeddings T FloretSubwordVocab (NdArray F) F) :
    Embeddings.readFloret d pos = .ok e ↔
      ∃ (h : FloretHead) (p : Nat) (lines : List Bytes) (rows : List (List F)),
        readFloretHead d pos = .ok (h, p) ∧
        h.nBuckets ≠ 0 ∧ h.embedLen ≠ 0 ∧ h.minN ≤ h.maxN ∧ 1 ≤ h.nHashes ∧ h.nHashes ≤ 4 ∧
        4 * (h.nBuckets * h.embedLen) ≤ isizeMax ∧
        IsLines (d.drop p) lines ∧ lines.length = h.nBuckets ∧ rows.length = h.nBuckets ∧
        (∀ (i : Nat) l r, lines[i]? = some l → rows[i]? = some r → FloretLineHas l r ∧ r.length = h.embedLen) ∧
        e.metadata = none ∧ e.norms = none ∧ e.storage.inner = ⟨h.embedLen, rows⟩ ∧
        SubwordVocab.newWithBoundaries [] h.minN h.maxN ⟨h.nBuckets, UInt32.ofNat h.seed, h.nHashes⟩ h.bow h.eow =
          .ok e.vocab := by
  have hline : ∀ {k : Nat}, 0 < k → ∀ {lines : List Bytes} {rows : List (List F)},
      lines.mapM (readFloretLine (F := F) k) = .ok rows ↔ lines.length = rows.length ∧
        ∀ (i : Nat) l r, lines[i]? = some l → rows[i]? = some r → FloretLineHas l r ∧ r.length = k := by
    intro k hk lines rows
    rw [Res.mapM_eq_ok_iff]
    constructor
    · intro h
      refine ⟨by simpa using congrArg List.length h, fun i l r hl hr => ?_⟩
      have := congrArg (·[i]?) h
      simp only [List.getElem?_map, hl, hr, Option.map_some, Option.some.injEq] at this
      exact (readFloretLine_iff hk).mp this
    · rintro ⟨h1, h2⟩
      apply List.ext_getElem?
      intro i
      rw [List.getElem?_map, List.getElem?_map]
      cases hl : lines[i]? with
      | none =>
        have : rows[i]? = none := by
          rw [List.getElem?_eq_none_iff] at hl ⊢; omega
        rw [this]; rfl
      | some l =>
        cases hr : rows[i]? with
        | none =>
          rw [List.getElem?_eq_none_iff] at hr
          obtain ⟨hi, -⟩ := List.getElem?_eq_some_iff.mp hl
          omega
        | some r => simp [(readFloretLine_iff hk).mpr (h2 i l r hl hr)]
  constructor
  · intro hr
    unfold Embeddings.readFloret at hr
    obtain ⟨⟨h, p⟩, hhead, hr⟩ := Res.bind_eq_ok.mp hr
    obtain ⟨_, hcheck, hr⟩ := Res.bind_eq_ok.mp hr
    obtain ⟨_, hassert, hr⟩ := Res.bind_eq_ok.mp hr
    obtain ⟨rows, hrows, hr⟩ := Res.bind_eq_ok.mp hr
    obtain ⟨m, hm, hr⟩ := Res.bind_eq_ok.mp hr
    obtain ⟨ix, hix, hr⟩ := Res.bind_eq_ok.mp hr
    obtain ⟨v, hv, hr⟩ := Res.bind_eq_ok.mp hr
    dsimp only at *
    obtain ⟨c1, c2, c3, c4, c5⟩ := checkFloretHead_iff.mp hcheck
    obtain ⟨hvl, rfl⟩ := newWithMaybeNorms_eq_ok.mp hr
    rw [readFloretLines_text] at hrows
    obtain ⟨hl1, hl2⟩ := (hline (by omega)).mp hrows
    obtain ⟨-, -, rfl⟩ := FloretIndexer.new_eq_ok.mp hix
    have hk : ∀ r ∈ rows, r.length = h.embedLen := by
      intro r hr
      obtain ⟨i, hi, rfl⟩ := List.mem_iff_getElem.mp hr
      exact (hl2 i _ _ (List.getElem?_eq_getElem (by omega)) (List.getElem?_eq_getElem hi)).2
    unfold fromShapeVec at hm
    split at hm
    · rename_i hfl
      cases hm
      rw [length_flatten_of hk] at hfl
      have hn : rows.length = h.nBuckets := Nat.eq_of_mul_eq_mul_right (by omega) hfl
      have hmat : Mat.ofFlat h.nBuckets h.embedLen rows.flatten = ⟨h.embedLen, rows⟩ := by
        have := chunks_flatten rows h.embedLen hk []
        rw [List.append_nil, hn] at this
        simp only [Mat.ofFlat, this]
      refine ⟨h, p, textLines (d.drop p), rows, hhead, c1, c2, c3, c4, c5, ?_, textLines_spec _, by omega, hn, hl2,
        rfl, rfl, hmat, hv⟩
      simpa [Res.assert] using hassert
    · cases hm
  · rintro ⟨h, p, lines, rows, hhead, c1, c2, c3, c4, c5, hmem, hlines, hn1, hn2, hall, hmeta, hnorms, hst, hv⟩
    obtain rfl := hlines.eq
    have hk : ∀ r ∈ rows, r.length = h.embedLen := by
      intro r hr
      obtain ⟨i, hi, rfl⟩ := List.mem_iff_getElem.mp hr
      exact (hall i _ _ (List.getElem?_eq_getElem (by omega)) (List.getElem?_eq_getElem hi)).2
    unfold Embeddings.readFloret
    rw [hhead, Res.ok_bind]
    dsimp only
    have hfl : rows.flatten.length = h.nBuckets * h.embedLen := by rw [length_flatten_of hk, hn2]
    have hmat : fromShapeVec (h.nBuckets, h.embedLen) rows.flatten = .ok ⟨h.embedLen, rows⟩ := by
      unfold fromShapeVec
      rw [if_pos hfl]
      have := chunks_flatten rows h.embedLen hk []
      rw [List.append_nil, hn2] at this
      simp only [Mat.ofFlat, this]
    rw [checkFloretHead_iff.mpr ⟨c1, c2, c3, c4, c5⟩, Res.ok_bind,
      show Res.assert (4 * (h.nBuckets * h.embedLen) ≤ isizeMax) = .ok () by simp [Res.assert, hmem], Res.ok_bind,
      readFloretLines_text, (hline (by omega)).mpr ⟨by omega, hall⟩, Res.ok_bind, hmat, Res.ok_bind,
      FloretIndexer.new_eq_ok.mpr ⟨⟨c4, c5⟩, c1, rfl⟩, Res.ok_bind, hv, Res.ok_bind, newWithMaybeNorms_eq_ok]
    obtain ⟨m', st, v', n'⟩ := e
    obtain ⟨inner⟩ := st
    simp only at hmeta hnorms hst hv ⊢
    subst hmeta hnorms hst
    refine ⟨?_, rfl⟩
    have hv' := (SubwordVocab.newWithBoundaries_eq_ok.mp hv).2.2
    rw [hv']
    simp [Vocab.vocabLen, Indexer.upperBound, Storage.shape, Mat.dim, Mat.nrows, hn2]
    rfl

omit [Scalar F] in
/-- **C60** (panics). The only input on which the floret reader panics is one whose valid first line promises more
than can be allocated. -/
theorem c60_panics (d : Bytes) (pos : Nat) :
    (Embeddings.readFloret d pos : Res (Embeddings T FloretSubwordVocab (NdArray F) F)) = .panic ↔
      ∃ (h : FloretHead) (p : Nat), readFloretHead d pos = .ok (h, p) ∧
        h.nBuckets ≠ 0 ∧ h.embedLen ≠ 0 ∧ h.minN ≤ h.maxN ∧ 1 ≤ h.nHashes ∧ h.nHashes ≤ 4 ∧
        isizeMax < 4 * (h.nBuckets * h.embedLen) := by
  have hhp : NoPanic readFloretHead := by
    unfold readFloretHead
    exact .bind (readNumber_noPanic _) fun _ => .bind (readNumber_noPanic _) fun _ => .bind (readNumber_noPanic _) fun _ =>
      .bind (readNumber_noPanic _) fun _ => .bind (readNumber_noPanic _) fun _ => .bind (readNumber_noPanic _) fun _ =>
      .bind (readToken_noPanic _ _) fun _ => .bind (readToken_noPanic _ _) fun _ => .pure _
  have hcp : ∀ h, checkFloretHead h ≠ .panic := by
    intro h; unfold checkFloretHead
    split
    · simp
    · split
      · simp
      · split
        · simp
        · split <;> simp
  unfold Embeddings.readFloret
  constructor
  · intro hr
    obtain ⟨⟨h, p⟩, hhead, hr⟩ := (Res.bind_eq_panic.mp hr).resolve_left (hhp d pos)
    obtain ⟨_, hcheck, hr⟩ := (Res.bind_eq_panic.mp hr).resolve_left (hcp h)
    obtain ⟨c1, c2, c3, c4, c5⟩ := checkFloretHead_iff.mp hcheck
    refine ⟨h, p, hhead, c1, c2, c3, c4, c5, ?_⟩
    dsimp only at *
    rcases Res.bind_eq_panic.mp hr with hr | ⟨_, hassert, hr⟩
    · simpa [Res.assert] using hr
    · exfalso
      have hassert : 4 * (h.nBuckets * h.embedLen) ≤ isizeMax := by simpa [Res.assert] using hassert
      obtain ⟨rows, hrows, hr⟩ := (Res.bind_eq_panic.mp hr).resolve_left
        (Res.mapM_ne_panic fun l _ => readFloretLine_no_panic _ l)
      obtain ⟨m, hm, hr⟩ := (Res.bind_eq_panic.mp hr).resolve_left (by unfold fromShapeVec; split <;> simp)
      rw [FloretIndexer.new_eq_ok.mpr ⟨⟨c4, c5⟩, c1, rfl⟩, Res.ok_bind] at hr
      have hble : h.nBuckets ≤ h.nBuckets * h.embedLen := Nat.le_mul_of_pos_right _ (by omega)
      have hu : isizeMax ≤ usizeMax := by decide
      have hv := (SubwordVocab.newWithBoundaries_eq_ok (ws := []) (m := h.minN) (M := h.maxN)
        (ix := (⟨h.nBuckets, UInt32.ofNat h.seed, h.nHashes⟩ : FloretIndexer)) (bow := h.bow) (eow := h.eow)).mpr
        ⟨List.nodup_nil, ⟨h.nBuckets, rfl, by simp; omega⟩, rfl⟩
      rw [hv, Res.ok_bind] at hr
      unfold fromShapeVec at hm
      split at hm
      · cases hm
        have : (newWithMaybeNorms none ⟨h.bow, h.eow, ⟨h.nBuckets, UInt32.ofNat h.seed, h.nHashes⟩, indexMap [], [], h.minN,
            h.maxN⟩ (NdArray.mk (Mat.ofFlat h.nBuckets h.embedLen rows.flatten)) none :
            Res (Embeddings T FloretSubwordVocab (NdArray F) F)) = .ok ⟨none, _, _, none⟩ :=
          newWithMaybeNorms_eq_ok.mpr ⟨by simp [Vocab.vocabLen, Indexer.upperBound, Storage.shape, Mat.dim]; rfl, rfl⟩
        rw [this] at hr
        cases hr
      · cases hm
  · rintro ⟨h, p, hhead, c1, c2, c3, c4, c5, hbig⟩
    rw [hhead, Res.ok_bind]
    dsimp only
    rw [checkFloretHead_iff.mpr ⟨c1, c2, c3, c4, c5⟩, Res.ok_bind,
      show Res.assert (4 * (h.nBuckets * h.embedLen) ≤ isizeMax) = .panic by simp [Res.assert, hbig]]
    rfl

end Floret

/-! ## Examples -/

attribute [local instance] exampleScalar exampleFloatText

/-- Floret embeddings with one word and two buckets. -/
def exampleFloret : Embeddings Str FloretSubwordVocab (NdArray F32) F32 :=
  ⟨none, ⟨⟨2, [[9, 9], [1, 2], [3, 4]]⟩⟩, ⟨['['], [']', 'é'], ⟨2, 7, 3⟩, indexMap [['w']], [['w']], 3, 6⟩, none⟩

/-- The hypotheses of `c51_roundtrip` can be met. -/
example : ∃ e' : Embeddings Str FloretSubwordVocab (NdArray F32) F32,
    Embeddings.readFloret exampleFloret.writeFloret.bytes 0 = .ok e' ∧ e'.storage.inner.rows = [[1, 2], [3, 4]] := by
  obtain ⟨-, e', h1, -, h3, -⟩ := c51_roundtrip (T' := Str) exampleFloret 2 3 7 ⟨2, 7, 3⟩ rfl [['w']] 3 6 ['['] [']', 'é']
    rfl 2 [[9, 9], [1, 2], [3, 4]] rfl rfl (by decide) (by decide) (by decide) (by decide) (by decide) (by decide)
    (by decide) fun _ _ x _ => exampleFloatText_faithful x
  exact ⟨e', h1, by rw [h3]; rfl⟩

/-- The written text. -/
example : exampleFloret.writeFloret.bytes = ascii "2 2 3 6 3 7 [ ]é\n0 1 2\n1 3 4\n" := by decide +kernel

/-- Outcome of reading a floret file of bit patterns. -/
def exampleFloretTable (s : String) : Res (List (List F32)) :=
  (Embeddings.readFloret (ascii s) 0 : Res (Embeddings Str FloretSubwordVocab (NdArray F32) F32)).map
    fun e => e.storage.inner.rows

/-- Accepted and rejected files (`c60_accepts`), and one that panics (`c60_panics`). Carriage returns before line feeds
and a missing last line feed are accepted; a line too few, ragged lines, bad parameters are not. -/
example : exampleFloretTable "2 2 3 6 3 7 < >\n0 1 2\r\n1 3 4" = .ok [[1, 2], [3, 4]] ∧
    exampleFloretTable "2 2 3 6 3 7 < >\n0 1 2\n" = .err .shape ∧
    exampleFloretTable "2 2 3 6 3 7 < >\n0 1\n1 2 3 4\n" = .err .format ∧
    exampleFloretTable "2 2 6 3 3 7 < >\n0 1 2\n1 3 4\n" = .err .format ∧
    exampleFloretTable "4611686018427387904 1 3 6 3 7 < >\n0 1\n" = .panic := by
  refine ⟨?_, ?_, ?_, ?_, ?_⟩ <;> decide +kernel

end FF
