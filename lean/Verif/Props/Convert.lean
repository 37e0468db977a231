import Verif.Props.EmbeddingsIO
import Verif.Props.Word2vec
import Verif.Props.Outcomes
import Verif.Props.FastText
import Verif.Props.TextExact

/-!
# Converting files of other formats to the finalfusion format (C80), accepted word2vec files (C48)
-/

namespace FF

open Rd Embeddings

/-! ## Sizes of decoded texts -/

theorem strLen_sublist {s t : Str} (h : s.Sublist t) : strLen s ≤ strLen t := by
  induction h with
  | slnil => exact Nat.le_refl _
  | cons c _ ih => rw [strLen_cons]; omega
  | cons_cons c _ ih => rw [strLen_cons, strLen_cons]; omega

theorem trimBy_sublist (p : Char → Bool) (s : Str) : (trimBy p s).Sublist s := by
  unfold trimBy
  have h1 := (List.dropWhile_suffix (l := (s.dropWhile p).reverse) p).sublist
  have h2 := (List.dropWhile_suffix (l := s) p).sublist
  have h3 := List.reverse_sublist.mpr h1
  rw [List.reverse_reverse] at h3
  exact h3.trans h2

theorem strLen_lossyF (fuel : Nat) (bs : Bytes) :
    strLen (utf8LossyF fuel bs) ≤ 3 * bs.length ∧ (utf8LossyF fuel bs).length ≤ bs.length := by
  induction fuel generalizing bs with
  | zero => cases bs <;> simp [utf8LossyF, strLen]
  | succ fuel ih =>
    cases bs with
    | nil => simp [utf8LossyF, strLen]
    | cons b bs =>
      rw [utf8LossyF]
      · cases hh : utf8Head (b :: bs) with
        | some c =>
          dsimp only
          have h1 := utf8Head_some hh
          have h2 := congrArg List.length h1
          rw [List.length_append, String.length_utf8EncodeChar] at h2
          have h3 := Char.utf8Size_pos c
          have := ih ((b :: bs).drop c.utf8Size)
          rw [h2, strLen_cons, List.length_cons]
          omega
        | none =>
          dsimp only
          have h1 := (invalidLen_spec (bs := b :: bs) (by simp) (utf8Head_none.mp hh)).1
          have := ih ((b :: bs).drop (invalidLen (b :: bs)))
          rw [List.length_drop] at this
          have h3 : replacementChar.utf8Size = 3 := by decide
          rw [strLen_cons, List.length_cons, h3]
          simp only [List.length_cons] at *
          omega
      · simp

theorem length_le_strLen (s : Str) : s.length ≤ strLen s := by
  induction s with
  | nil => exact Nat.le_refl _
  | cons c s ih =>
    have := Char.utf8Size_pos c
    rw [strLen_cons, List.length_cons]; omega

/-- A decoded text is at most three times as long as the data, and has no more characters than the data has bytes. -/
theorem decodeToken_size {lossy : Bool} {bs : Bytes} {s : Str} (h : decodeToken lossy bs = .ok s) :
    strLen s ≤ 3 * bs.length ∧ s.length ≤ bs.length := by
  cases lossy with
  | true =>
    simp only [decodeToken, if_true, Res.ok.injEq] at h
    subst h
    exact strLen_lossyF _ _
  | false =>
    simp only [decodeToken] at h
    cases hd : utf8Decode bs with
    | none => simp [hd, Res.ofOption] at h
    | some t =>
      simp only [hd, Bool.false_eq_true, if_false, Res.ofOption_some, Res.ok.injEq] at h
      subst h
      have h1 := utf8_of_utf8Decode hd
      have h2 := length_le_strLen t
      unfold strLen at *
      rw [h1] at h2 ⊢
      omega

theorem TokensOf.size {s : Str} {ts : List Str} (h : TokensOf s ts) :
    ts.length ≤ s.length ∧ ∀ t ∈ ts, strLen t ≤ strLen s := by
  induction h with
  | nil h => simp
  | cons h1 h2 h3 _ ih =>
    have h4 := List.length_pos_iff.mpr h2.1
    simp only [List.length_append, List.length_cons, strLen_append, List.mem_cons, forall_eq_or_imp]
    refine ⟨by omega, by omega, fun t ht => ?_⟩
    have := ih.2 t ht
    omega

theorem takeThrough_length (delim : UInt8) (bs : Bytes) : (takeThrough delim bs).length ≤ bs.length := by
  induction bs with
  | nil => simp [takeThrough]
  | cons b bs ih =>
    simp only [takeThrough]
    split <;> simp
    exact ih

theorem readToken_size {delim : UInt8} {lossy : Bool} {d : Bytes} {p q : Nat} {s : Str}
    (h : readToken delim lossy d p = .ok (s, q)) : strLen s ≤ 3 * d.length := by
  unfold readToken readUntil at h
  obtain ⟨b, p1, h1, h2⟩ := Rd.bind_ok.mp h
  simp only [Res.ok.injEq, Prod.mk.injEq] at h1
  obtain ⟨rfl, -⟩ := h1
  have := (decodeToken_size (Rd.lift_ok.mp h2).1).1
  have h3 := takeThrough_length delim (d.drop p)
  simp only [List.length_dropLast, List.length_drop] at *
  omega

theorem Took.length_le {d : Bytes} {p q : Nat} {bs : Bytes} (h : Took d p q bs) : bs.length ≤ d.length := by
  have := congrArg List.length h.1
  simp only [List.length_append, List.length_drop] at this
  omega

/-! ## Converting -/

/-- Embeddings with a dense matrix are converted without loss: writing them in the finalfusion format succeeds; the
file is read back as the same embeddings, as the concrete type and as the wrapper types; and opened with the matrix
memory mapped it has the same metadata, vocabulary, norms and rows. -/
def Converts {T V : Type} [Toml T] [WriteChunk V] [ReadChunk V] [Scalar F32] (wrap : V → VocabWrap)
    (e : Embeddings T V (NdArray F32) F32) : Prop :=
  (e.write 0).status = .ok () ∧
  (read (e.write 0).bytes 0 : Res (Embeddings T V (NdArray F32) F32)) = .ok e ∧
  (read (e.write 0).bytes 0 : Res (Embeddings T VocabWrap StorageWrap F32)) =
    .ok ⟨e.metadata, .ndArray e.storage, wrap e.vocab, e.norms⟩ ∧
  ∃ e' : Embeddings T VocabWrap StorageWrap F32, mmap mmapStorageWrap (e.write 0).bytes 0 = .ok e' ∧
    e'.metadata = e.metadata ∧ e'.vocab = wrap e.vocab ∧ e'.norms = e.norms ∧
    SameRows e'.storage (StorageWrap.ndArray e.storage)

/-- Metadata that the TOML library prints and parses without loss. -/
def MetadataOk {T V S : Type} [Toml T] (e : Embeddings T V S F32) : Prop :=
  ∀ m ∈ e.metadata, Toml.parse (Toml.print m.inner) = some m.inner ∧ strLen (Toml.print m.inner) ≤ isizeMax

theorem converts_of {T V : Type} [Toml T] [WriteChunk V] [ReadChunk V] [VocabChunk V] [Scalar F32]
    {wrap : V → VocabWrap} {e : Embeddings T V (NdArray F32) F32} (hm : MetadataOk e)
    (hw : ∀ off, writeChunk (wrap e.vocab) off = writeChunk e.vocab off) (hi : chunkId (wrap e.vocab) = chunkId e.vocab)
    (hv : RoundTrips e.vocab) (hv' : StorableVocab (wrap e.vocab)) (hs : StorableStorage (.ndArray e.storage))
    (hn : ∀ n ∈ e.norms, 4 * n.inner.length ≤ isizeMax) : Converts wrap e := by
  have h1 : Storable e :=
    ⟨fun m h => c14_metadata m (hm m h).1 (hm m h).2, hv, c11_array _ hs.1 hs.2.1 hs.2.2.1 hs.2.2.2,
      fun n h => c13_norms n (hn n h)⟩
  obtain ⟨md, s, v, nm⟩ := e
  have h2 : Storable (T := T) (V := VocabWrap) (S := StorageWrap) ⟨md, .ndArray s, wrap v, nm⟩ :=
    c15_wrap _ hm hv' hs hn
  have hb : (Embeddings.mk md (StorageWrap.ndArray s) (wrap v) nm : Embeddings T VocabWrap StorageWrap F32).write 0 =
      (Embeddings.mk md s v nm : Embeddings T V (NdArray F32) F32).write 0 := by
    have hc : (Embeddings.mk md (StorageWrap.ndArray s) (wrap v) nm : Embeddings T VocabWrap StorageWrap F32).chunkIds =
        (Embeddings.mk md s v nm : Embeddings T V (NdArray F32) F32).chunkIds := by
      unfold Embeddings.chunkIds
      dsimp only at hi ⊢
      rw [hi]; rfl
    unfold Embeddings.write
    rw [hc]
    dsimp only
    have : writeChunk (wrap v) = writeChunk v := funext hw
    rw [this]
    rfl
  have hp : ∀ n : Option (NdNorms F32), n = none → u32At [] 0 ≠ some 6 := by intro _ _; decide
  obtain ⟨a1, a2⟩ := c15_round_trip _ h1 [] [] (hp _)
  obtain ⟨b1, b2⟩ := c15_round_trip _ h2 [] [] (hp _)
  simp only [List.length_nil, List.nil_append, List.append_nil] at a1 a2 b1 b2
  rw [hb] at b2
  obtain ⟨e', c1, c2, c3, c4, c5, -⟩ := c21_embeddings _ _ _ b2
  exact ⟨a1, a2, b2, e', c1, c2, c3, c4, c5⟩


/-! ## Accepted word2vec files -/

/-- A record of a word2vec file: the bytes of the word and the components. -/
structure W2vRecord where
  word : Bytes
  xs : List F32

/-- The bytes of a record. -/
def W2vRecord.bytes (r : W2vRecord) : Bytes := r.word ++ [32] ++ encodeF32s r.xs

section Word2vec
variable {T F : Type} [Scalar F] [FloatBits F]

omit [Scalar F] in
/-- `read_word2vec_binary_raw`, with the constructors resolved. -/
theorem readWord2vecRaw_ok {lossy : Bool} {d : Bytes} {pos q : Nat} {e : Embeddings T SimpleVocab (NdArray F) F} :
    readWord2vecRaw lossy d pos = .ok (e, q) ↔
      ∃ (n k p1 p2 : Nat) (es : List (Str × List F)),
        readNumber 32 d pos = .ok (n, p1) ∧ readNumber 10 d p1 = .ok (k, p2) ∧
        (([n, k].filter (· ≠ 0)).prod ≤ isizeMax ∧ 4 * (n * k) ≤ isizeMax) ∧ 24 * n ≤ isizeMax ∧
        replicateM n (readWord2vecEntry (F := F) k lossy) d p2 = .ok (es, q) ∧ (es.map (·.1)).Nodup ∧
        e = ⟨none, ⟨⟨k, es.map (·.2)⟩⟩, ⟨indexMap (es.map (·.1)), es.map (·.1)⟩, none⟩ := by
  have hp : ∀ n k : Nat, [n, k].prod = n * k := by intro n k; simp
  unfold readWord2vecRaw
  constructor
  · intro h
    obtain ⟨n, p1, h1, h⟩ := Rd.bind_ok.mp h
    obtain ⟨k, p2, h2, h⟩ := Rd.bind_ok.mp h
    obtain ⟨_, p3, h3, h⟩ := Rd.bind_ok.mp h
    obtain ⟨_, p4, h4, h⟩ := Rd.bind_ok.mp h
    obtain ⟨es, p5, h5, h⟩ := Rd.bind_ok.mp h
    obtain ⟨v, p6, h6, h⟩ := Rd.bind_ok.mp h
    obtain ⟨h7, rfl⟩ := Rd.lift_ok.mp h
    unfold allocArray at h3
    unfold alloc at h4
    obtain ⟨h3', rfl⟩ := Rd.assert_ok.mp h3
    obtain ⟨h4', rfl⟩ := Rd.assert_ok.mp h4
    obtain ⟨h6', rfl⟩ := Rd.lift_ok.mp h6
    obtain ⟨hnd, rfl⟩ := SimpleVocab.new_eq_ok.mp h6'
    obtain ⟨-, rfl⟩ := newWithMaybeNorms_eq_ok.mp h7
    have h3' := of_decide_eq_true h3'
    rw [hp] at h3'
    exact ⟨n, k, p1, _, es, h1, h2, h3', of_decide_eq_true h4', h5, hnd, rfl⟩
  · rintro ⟨n, k, p1, p2, es, h1, h2, h3, h4, h5, h6, rfl⟩
    refine Rd.bind_ok.mpr ⟨n, p1, h1, Rd.bind_ok.mpr ⟨k, p2, h2, Rd.bind_ok.mpr ⟨(), p2, ?_,
      Rd.bind_ok.mpr ⟨(), p2, ?_, Rd.bind_ok.mpr ⟨es, q, h5, Rd.bind_ok.mpr ⟨_, q, Rd.lift_ok.mpr
        ⟨SimpleVocab.new_eq_ok.mpr ⟨h6, rfl⟩, rfl⟩, Rd.lift_ok.mpr ⟨newWithMaybeNorms_eq_ok.mpr ⟨?_, rfl⟩, rfl⟩⟩⟩⟩⟩⟩⟩
    · unfold allocArray
      refine Rd.assert_ok.mpr ⟨decide_eq_true ?_, rfl⟩
      rw [hp]; exact h3
    · exact Rd.assert_ok.mpr ⟨decide_eq_true h4, rfl⟩
    · show Res.ok (indexMap (es.map (·.1))).len = _
      rw [(indexMap_len_iff _).mpr h6]
      simp [Storage.shape, Mat.dim, Mat.nrows]

omit [Scalar F] in
/-- The entry that a reading step returned is that of the record it read. -/
theorem readWord2vecEntry_took {k : Nat} (hk : k ≠ 0) {lossy : Bool} {d : Bytes} {pos q : Nat} {r : Str × List F}
    (h : readWord2vecEntry k lossy d pos = .ok (r, q)) :
    ∃ b : W2vRecord, ((32 ∉ b.word ∧ b.xs.length = k) ∧ ∃ s, decodeToken lossy b.word = .ok s ∧
      r = (trimBy isWhitespace s, b.xs.map FloatBits.ofBits)) ∧ Took d pos q b.bytes := by
  unfold readWord2vecEntry at h
  obtain ⟨w, p1, h1, h⟩ := Rd.bind_ok.mp h
  obtain ⟨xs, p2, h2, h⟩ := Rd.bind_ok.mp h
  obtain ⟨rfl, rfl⟩ := Prod.mk.inj (Res.ok.inj h)
  obtain ⟨hl, t2⟩ := readF32s_took h2
  rw [readToken_apply] at h1
  obtain ⟨s', hs', he⟩ := Res.map_eq_ok.mp h1
  obtain ⟨rfl, rfl⟩ := Prod.mk.inj he
  rcases takeThrough_cases 32 (d.drop pos) with ⟨wb, rest, hnw, hd⟩ | hno
  · rw [hd, takeThrough_append hnw] at hs' t2
    refine ⟨⟨wb, xs⟩, ⟨⟨hnw, hl⟩, s', ?_, rfl⟩, ?_⟩
    · rwa [List.dropLast_concat] at hs'
    · have t1 : Took d pos (pos + (wb ++ [32]).length) (wb ++ [32]) := by
        refine ⟨?_, rfl⟩
        rw [← List.drop_drop, hd, List.append_assoc, List.singleton_append]
        congr 1
        rw [show wb ++ 32 :: rest = (wb ++ [32]) ++ rest by simp, List.drop_left' rfl]
      exact t1.append t2
  · exfalso
    unfold readF32s at h2
    obtain ⟨bs, p4, h4, -⟩ := Rd.bind_ok.mp h2
    obtain ⟨-, -, h5⟩ := readExact_ok h4
    have := h5 (by omega)
    rw [takeThrough_none hno] at this
    simp at this
    omega

omit [Scalar F] in
theorem readWord2vecEntry_reads {k : Nat} {lossy : Bool} {b : W2vRecord} {s : Str} (h1 : 32 ∉ b.word)
    (h2 : b.xs.length = k) (h3 : decodeToken lossy b.word = .ok s) (off : Nat) :
    ReadsAt (readWord2vecEntry (F := F) k lossy) off b.bytes (trimBy isWhitespace s, b.xs.map FloatBits.ofBits) := by
  unfold readWord2vecEntry W2vRecord.bytes
  refine .bind (a := s) ?_ ?_
  · unfold readToken
    have := ReadsAt.bind (f := fun buf : Bytes => Rd.lift (decodeToken lossy buf.dropLast)) (b₂ := []) (b := s)
      (readUntil_readsAt h1 off) (by
        rw [List.dropLast_concat, h3]
        exact ReadsAt.lift_ok _ _)
    simpa using this
  · rw [← List.append_nil (encodeF32s _), ← h2]
    exact .bind (.readF32s _ _) (.pure _ _)

/-- The records of `n` words between two positions, `k` components each; `ws` are the decoded words. -/
def W2vRecords (lossy : Bool) (d : Bytes) (n k p q : Nat) (rs : List W2vRecord) (ws : List Str) : Prop :=
  rs.length = n ∧ (∀ r ∈ rs, 32 ∉ r.word ∧ r.xs.length = k) ∧
  rs.map (fun r => decodeToken lossy r.word) = ws.map .ok ∧ Took d p q (rs.flatMap W2vRecord.bytes)

/-- The matrix of `n` rows of `k` components and the word list can be allocated. -/
def W2vAlloc (n k : Nat) : Prop :=
  (([n, k].filter (· ≠ 0)).prod ≤ isizeMax ∧ 4 * (n * k) ≤ isizeMax) ∧ 24 * n ≤ isizeMax

omit [Scalar F] in
theorem word2vecEntries_iff {lossy : Bool} {d : Bytes} {n k p q : Nat} (hk : k ≠ 0) {es : List (Str × List F)} :
    replicateM n (readWord2vecEntry (F := F) k lossy) d p = .ok (es, q) ↔
      ∃ rs ws, W2vRecords lossy d n k p q rs ws ∧
        es = (ws.map (trimBy isWhitespace)).zip (rs.map fun r => r.xs.map FloatBits.ofBits) := by
  constructor
  · intro h5
    obtain ⟨abs, a1, rfl, a3, a4⟩ := replicateM_took
      (P := fun (r : Str × List F) (b : W2vRecord) => (32 ∉ b.word ∧ b.xs.length = k) ∧
        ∃ s, decodeToken lossy b.word = .ok s ∧ r = (trimBy isWhitespace s, b.xs.map FloatBits.ofBits))
      (fun pos q a h => readWord2vecEntry_took hk h) h5
    have : ∃ ws : List Str, abs.map (fun ab => decodeToken lossy ab.2.word) = ws.map .ok ∧
        abs.map Prod.fst = (ws.map (trimBy isWhitespace)).zip
          ((abs.map Prod.snd).map fun r => r.xs.map FloatBits.ofBits) := by
      clear a1 a4 h5 hk
      induction abs with
      | nil => exact ⟨[], rfl, rfl⟩
      | cons ab abs ih =>
        obtain ⟨ws, b1, b2⟩ := ih fun x hx => a3 x (List.mem_cons_of_mem _ hx)
        obtain ⟨-, s, c1, c2⟩ := a3 ab (by simp)
        exact ⟨s :: ws, by simp [c1, b1], by
          simp only [List.map_cons, List.zip_cons_cons, c2, b2]⟩
    obtain ⟨ws, b1, b2⟩ := this
    refine ⟨abs.map (·.2), ws, ⟨by simpa using a1, ?_, by rw [List.map_map]; exact b1, ?_⟩, b2⟩
    · intro r hr
      obtain ⟨ab, hab, rfl⟩ := List.mem_map.mp hr
      exact (a3 ab hab).1
    · rw [List.flatMap_map]; exact a4
  · rintro ⟨rs, ws, ⟨rfl, h6, h7, h8⟩, rfl⟩
    induction rs generalizing ws p with
    | nil =>
      have : ws = [] := by simpa using h7.symm
      subst this
      have := h8.2
      simp at this
      subst this
      rfl
    | cons r rs ih =>
      cases ws with
      | nil => simp at h7
      | cons w ws =>
        simp only [List.map_cons, List.cons.injEq] at h7
        rw [List.flatMap_cons] at h8
        obtain ⟨t1, t2⟩ := h8.split
        have hr := ReadsAt.at' (readWord2vecEntry_reads (F := F) (h6 r (by simp)).1 (h6 r (by simp)).2 h7.1 p) t1
          (t1.le (by simp [W2vRecord.bytes]))
        have hrs := ih ws (fun r hr => h6 r (List.mem_cons_of_mem _ hr)) h7.2 t2
        simp only [List.length_cons, replicateM, bind_apply, hr, Res.ok_bind, hrs]
        rfl

omit [Scalar F] in
/-- **C48** (accepted files). A word2vec file with at least one component per word is accepted exactly if its first
line has two numbers, the matrix they promise can be allocated, it continues with as many records as promised, each a
text that can be decoded, a space and the promised number of components, and the words, without the white space around
them, are distinct. The result has these words and components, bit by bit, and nothing else is read. -/
theorem c48_accepts (lossy : Bool) (d : Bytes) (pos q : Nat) (e : Embeddings T SimpleVocab (NdArray F) F)
    (hk : e.storage.inner.cols ≠ 0) :
    readWord2vecRaw lossy d pos = .ok (e, q) ↔
      ∃ (n k p1 p2 : Nat) (rs : List W2vRecord) (ws : List Str),
        readNumber 32 d pos = .ok (n, p1) ∧ readNumber 10 d p1 = .ok (k, p2) ∧ W2vAlloc n k ∧
        W2vRecords lossy d n k p2 q rs ws ∧ (ws.map (trimBy isWhitespace)).Nodup ∧
        e = ⟨none, ⟨⟨k, rs.map fun r => r.xs.map FloatBits.ofBits⟩⟩,
          ⟨indexMap (ws.map (trimBy isWhitespace)), ws.map (trimBy isWhitespace)⟩, none⟩ := by
  rw [readWord2vecRaw_ok]
  constructor
  · rintro ⟨n, k, p1, p2, es, h1, h2, h3, h4, h5, h6, rfl⟩
    obtain ⟨rs, ws, hr, rfl⟩ := (word2vecEntries_iff hk).mp h5
    have hl : ws.length = rs.length := by simpa using (congrArg List.length hr.2.2.1).symm
    rw [List.map_fst_zip (by simp [hl])] at h6
    refine ⟨n, k, p1, p2, rs, ws, h1, h2, ⟨h3, h4⟩, hr, h6, ?_⟩
    rw [List.map_fst_zip (by simp [hl]), List.map_snd_zip (by simp [hl])]
  · rintro ⟨n, k, p1, p2, rs, ws, h1, h2, ⟨h3, h4⟩, hr, h6, rfl⟩
    have hl : ws.length = rs.length := by simpa using (congrArg List.length hr.2.2.1).symm
    refine ⟨n, k, p1, p2, _, h1, h2, h3, h4, (word2vecEntries_iff hk).mpr ⟨rs, ws, hr, rfl⟩, ?_, ?_⟩
    · rw [List.map_fst_zip (by simp [hl])]; exact h6
    · rw [List.map_fst_zip (by simp [hl]), List.map_snd_zip (by simp [hl])]

omit [Scalar F] in
theorem readWord2vecEntry_noPanic (k : Nat) (lossy : Bool) : NoPanic (readWord2vecEntry (F := F) k lossy) := by
  unfold readWord2vecEntry
  exact (readToken_noPanic _ _).bind fun _ => (NoPanic.readF32s _).bind fun _ => .pure _

/-- **C48** (panics). A word2vec file whose first line does not promise zero components makes the readers panic exactly if
the matrix or the word list that the first line promises cannot be allocated, or all promised records are there but two
words are equal after the white space around them is removed. In all other cases the reader returns embeddings or an
error. -/
theorem c48_panics (lossy : Bool) (d : Bytes) (pos : Nat)
    (hk : ∀ n p1 p2, readNumber 32 d pos = .ok (n, p1) → readNumber 10 d p1 ≠ .ok (0, p2)) :
    ((readWord2vecRaw lossy d pos : Res (Embeddings T SimpleVocab (NdArray F) F × Nat)) = .panic ↔
      ∃ n k p1 p2, readNumber 32 d pos = .ok (n, p1) ∧ readNumber 10 d p1 = .ok (k, p2) ∧
        (¬ W2vAlloc n k ∨
          ∃ q rs ws, W2vRecords lossy d n k p2 q rs ws ∧ ¬ (ws.map (trimBy isWhitespace)).Nodup)) ∧
    ((readWord2vec lossy d pos : Res (Embeddings T SimpleVocab (NdArray F) F × Nat)) = .panic ↔
      (readWord2vecRaw lossy d pos : Res (Embeddings T SimpleVocab (NdArray F) F × Nat)) = .panic) := by
  constructor
  · have halloc : ∀ n k : Nat, ¬ W2vAlloc n k ↔ TooBig 4 [n, k] ∨ isizeMax < 24 * n := by
      intro n k
      have hp : [n, k].prod = n * k := by simp
      unfold W2vAlloc TooBig
      rw [hp]
      omega
    unfold readWord2vecRaw
    rw [(readNumber_noPanic _).bind_panic]
    simp only [(readNumber_noPanic _).bind_panic, allocArray_panic, alloc_panic,
      ((readWord2vecEntry_noPanic (F := F) _ _).replicateM _).bind_panic, lift_panic, lift_panic', halloc]
    constructor
    · rintro ⟨n, p1, h1, k, p2, h2, h⟩
      refine ⟨n, k, p1, p2, h1, h2, ?_⟩
      rcases h with h | h | ⟨es, q, h3, h⟩
      · exact .inl (.inl h)
      · exact .inl (.inr h)
      · right
        have hk0 : k ≠ 0 := fun h0 => hk n p1 p2 h1 (h0 ▸ h2)
        obtain ⟨rs, ws, hr, rfl⟩ := (word2vecEntries_iff hk0).mp h3
        have hl : ws.length = rs.length := by simpa using (congrArg List.length hr.2.2.1).symm
        rw [List.map_fst_zip (by simp [hl]), List.map_snd_zip (by simp [hl])] at h
        refine ⟨q, rs, ws, hr, fun hnd => ?_⟩
        rcases h with h | ⟨v, h4, h5⟩
        · rw [SimpleVocab.new_eq_ok.mpr ⟨hnd, rfl⟩] at h
          cases h
        · obtain ⟨-, rfl⟩ := SimpleVocab.new_eq_ok.mp h4
          have hl' : Vocab.vocabLen (⟨indexMap (ws.map (trimBy isWhitespace)), ws.map (trimBy isWhitespace)⟩ : SimpleVocab) =
              .ok (shape (NdArray.mk ⟨k, rs.map fun r => r.xs.map (FloatBits.ofBits : F32 → F)⟩)).1 := by
            show Res.ok (indexMap (ws.map (trimBy isWhitespace))).len =
              .ok (rs.map fun r => r.xs.map (FloatBits.ofBits : F32 → F)).length
            rw [(indexMap_len_iff _).mpr hnd]
            simp [hl]
          rw [newWithMaybeNorms_eq_ok.mpr ⟨hl', rfl⟩] at h5
          cases h5
    · rintro ⟨n, k, p1, p2, h1, h2, h⟩
      refine ⟨n, p1, h1, k, p2, h2, ?_⟩
      rcases h with (h | h) | ⟨q, rs, ws, hr, hnd⟩
      · exact .inl h
      · exact .inr (.inl h)
      · have hk0 : k ≠ 0 := fun h0 => hk n p1 p2 h1 (h0 ▸ h2)
        have hl : ws.length = rs.length := by simpa using (congrArg List.length hr.2.2.1).symm
        refine .inr (.inr ⟨_, q, (word2vecEntries_iff hk0).mpr ⟨rs, ws, hr, rfl⟩, .inl ?_⟩)
        rw [List.map_fst_zip (by simp [hl])]
        exact SimpleVocab.new_panic hnd
  · unfold readWord2vec
    rw [Rd.bind_panic]
    constructor
    · rintro (h | ⟨e, q, h, h'⟩)
      · exact h
      · have hn := c48_normalized lossy d pos q e h
        unfold readWord2vec at hn
        rw [bind_apply, h] at hn
        simp only [Res.ok_bind] at hn
        rw [h'] at hn
        cases hn
    · exact .inl

end Word2vec


/-! ## C80: word2vec and text -/

/-- Files for which the properties below are stated: small ones (up to a gibibyte) with at least one row; larger ones if
no word has 2^32 bytes and there are fewer than 2^32 components per row. -/
def ConvertSize (d : Bytes) (words : List Str) (m : Mat F32) : Prop :=
  d.length ≤ 2 ^ 30 ∧ m.rows ≠ [] ∨ d.length ≤ 2 ^ 58 ∧ (∀ w ∈ words, strLen w < 2 ^ 32) ∧ m.cols < 2 ^ 32

section Simple
variable {T : Type} [Scalar F32]

/-- Facts about embeddings with a simple vocabulary that suffice for the conversion. -/
structure SimpleFits (e : Embeddings T SimpleVocab (NdArray F32) F32) : Prop where
  metadata : e.metadata = none
  vocab : SimpleVocab.new e.vocab.words = .ok e.vocab
  words : 24 * e.vocab.words.length ≤ isizeMax
  rows : e.storage.inner.rows.length = e.vocab.words.length
  wf : e.storage.inner.WF
  mem : 4 * (e.storage.inner.nrows * e.storage.inner.cols) ≤ isizeMax
  norms : ∀ n ∈ e.norms, n.inner.length = e.vocab.words.length

theorem SimpleFits.converts [Toml T] {e : Embeddings T SimpleVocab (NdArray F32) F32} (h : SimpleFits e)
    (hw : ∀ w ∈ e.vocab.words, strLen w < 2 ^ 32) (hc : e.storage.inner.cols < 2 ^ 32) : Converts .simple e := by
  have hr := h.rows
  have hm := h.words
  have hi : isizeMax = 2 ^ 63 - 1 := rfl
  refine converts_of (by intro m hm; rw [h.metadata] at hm; cases hm) (fun _ => rfl) rfl
    (c07_simple _ _ h.vocab hw h.words) ⟨_, h.vocab, hw, h.words⟩ ⟨h.wf, hc, ?_, h.mem⟩ ?_
  · unfold Mat.nrows; omega
  · intro n hn
    have := h.norms n hn
    omega

theorem SimpleFits.normalized {e e' : Embeddings T SimpleVocab (NdArray F32) F32} (h : SimpleFits e)
    (hn : normalizeRead e = .ok e') :
    SimpleFits e' ∧ e'.vocab = e.vocab ∧ e'.storage.inner.cols = e.storage.inner.cols ∧
      e'.storage.inner.rows.length = e.storage.inner.rows.length := by
  unfold normalizeRead Embeddings.new at hn
  simp only at hn
  obtain ⟨_, _, hn⟩ := Res.bind_eq_ok.mp hn
  obtain ⟨-, rfl⟩ := newWithMaybeNorms_eq_ok.mp hn
  refine ⟨⟨rfl, h.vocab, h.words, ?_, ?_, ?_, ?_⟩, rfl, rfl, by simp [l2NormalizeArray]⟩
  · simpa [l2NormalizeArray] using h.rows
  · intro r hr
    obtain ⟨r', hr', rfl⟩ := List.mem_map.mp (show r ∈ e.storage.inner.rows.map _ from hr)
    rw [l2Normalize_length]
    exact h.wf r' hr'
  · simpa [l2NormalizeArray, Mat.nrows] using h.mem
  · rintro n ⟨⟩
    simpa [l2NormalizeArray] using h.rows

omit [Scalar F32] in
theorem word2vec_fits {lossy : Bool} {d : Bytes} {pos q : Nat} {e : Embeddings T SimpleVocab (NdArray F32) F32}
    (h : readWord2vecRaw lossy d pos = .ok (e, q)) :
    SimpleFits e ∧ (∀ w ∈ e.vocab.words, strLen w ≤ 3 * d.length) ∧
      (e.storage.inner.rows ≠ [] → 4 * e.storage.inner.cols ≤ d.length) := by
  obtain ⟨n, k, p1, p2, es, h1, h2, h3, h4, h5, h6, rfl⟩ := readWord2vecRaw_ok.mp h
  have hlen : ∀ {n p : Nat} {es : List (Str × List F32)},
      replicateM n (readWord2vecEntry (F := F32) k lossy) d p = .ok (es, q) → es.length = n := by
    intro n
    induction n with
    | zero => intro p es h; cases h; rfl
    | succ n ih =>
      intro p es h
      simp only [replicateM] at h
      obtain ⟨a, p1, -, h⟩ := Rd.bind_ok.mp h
      obtain ⟨as', p2, h2, h⟩ := Rd.bind_ok.mp h
      obtain ⟨rfl, rfl⟩ := Prod.mk.inj (Res.ok.inj h)
      simp [ih h2]
  have hn := hlen h5
  have hmem : ∀ r ∈ es, r.2.length = k ∧ strLen r.1 ≤ 3 * d.length ∧ 4 * k ≤ d.length := by
    intro r hr
    obtain ⟨i, j, hij⟩ := replicateM_mem h5 r hr
    unfold readWord2vecEntry at hij
    obtain ⟨w, p3, h7, hij⟩ := Rd.bind_ok.mp hij
    obtain ⟨xs, p4, h8, hij⟩ := Rd.bind_ok.mp hij
    obtain ⟨rfl, rfl⟩ := Prod.mk.inj (Res.ok.inj hij)
    obtain ⟨hl, ht⟩ := readF32s_took h8
    refine ⟨by simp [hl], Nat.le_trans (strLen_sublist (trimBy_sublist _ _)) (readToken_size h7), ?_⟩
    have := ht.length_le
    rwa [encodeF32s_length, hl] at this
  refine ⟨⟨rfl, SimpleVocab.new_eq_ok.mpr ⟨h6, rfl⟩, by simpa [hn] using h4, by simp, ?_, ?_, by simp⟩, ?_, ?_⟩
  · intro r hr
    obtain ⟨x, hx, rfl⟩ := List.mem_map.mp (show r ∈ es.map _ from hr)
    exact (hmem x hx).1
  · simpa [Mat.nrows, hn] using h3.2
  · intro w hw
    obtain ⟨x, hx, rfl⟩ := List.mem_map.mp (show w ∈ es.map _ from hw)
    exact (hmem x hx).2.1
  · intro hne
    cases es with
    | nil => exact absurd rfl hne
    | cons x es => exact (hmem x (by simp)).2.2

omit [Scalar F32] in
theorem ConvertSize.fits {d : Bytes} {ws : List Str} {m : Mat F32} (h : ConvertSize d ws m)
    (h1 : ∀ w ∈ ws, strLen w ≤ 3 * d.length) (h2 : m.rows ≠ [] → m.cols ≤ d.length) :
    (∀ w ∈ ws, strLen w < 2 ^ 32) ∧ m.cols < 2 ^ 32 := by
  rcases h with ⟨h, hne⟩ | ⟨-, h3, h4⟩
  · have := h2 hne
    refine ⟨fun w hw => ?_, by omega⟩
    have := h1 w hw
    omega
  · exact ⟨h3, h4⟩

/-- **C80** (word2vec). What the word2vec readers return, normalised or raw, strict or lossy, is converted to the
finalfusion format without loss. -/
theorem c80_word2vec [Toml T] (lossy : Bool) (d : Bytes) (pos q : Nat) (e : Embeddings T SimpleVocab (NdArray F32) F32)
    (h : readWord2vec lossy d pos = .ok (e, q) ∨ readWord2vecRaw lossy d pos = .ok (e, q))
    (hsize : ConvertSize d e.vocab.words e.storage.inner) : Converts .simple e := by
  rcases h with h | h
  · unfold readWord2vec at h
    obtain ⟨e0, p1, h1, h⟩ := Rd.bind_ok.mp h
    obtain ⟨h2, rfl⟩ := Rd.lift_ok.mp h
    obtain ⟨f1, f2, f3⟩ := word2vec_fits h1
    obtain ⟨g1, g2, g3, g4⟩ := f1.normalized h2
    obtain ⟨s1, s2⟩ := hsize.fits (by rw [g2]; exact f2) fun hne => by
      have := f3 fun h0 => hne (by rw [h0] at g4; simpa using g4)
      omega
    exact g1.converts s1 s2
  · obtain ⟨f1, f2, f3⟩ := word2vec_fits h
    obtain ⟨s1, s2⟩ := hsize.fits f2 fun hne => by
      have := f3 hne
      omega
    exact f1.converts s1 s2

/-! ### Text -/

omit [Scalar F32] in
theorem IsLines.size {bs : Bytes} {ls : List Bytes} (h : IsLines bs ls) :
    ls.length ≤ bs.length ∧ (ls.map List.length).sum ≤ bs.length := by
  have key : ∀ ls : List Bytes, (ls.flatMap (· ++ [(10 : UInt8)])).length = ls.length + (ls.map List.length).sum := by
    intro ls
    induction ls with
    | nil => rfl
    | cons l ls ih => rw [List.flatMap_cons, List.length_append, ih]; simp; omega
  rcases h.2 with rfl | ⟨init, last, rfl, hne, rfl⟩
  · rw [key]; omega
  · have := List.length_pos_iff.mpr hne
    have hk : (init.flatMap (· ++ [(10 : UInt8)]) ++ last).length =
        init.length + (init.map List.length).sum + last.length := by
      rw [List.length_append]; exact congrArg (· + last.length) (key init)
    have h1 : ((init ++ [last]).map List.length).sum = (init.map List.length).sum + last.length := by simp
    have h2 : (init ++ [last]).length = init.length + 1 := by simp
    rw [h1, h2, hk]
    omega

omit [Scalar F32] in
theorem LinesHave.size [FloatText F32] {lossy : Bool} {lines : List Bytes} {rows : List (Str × List F32)}
    (h : LinesHave lossy lines rows) :
    (rows.map (·.2)).flatten.length ≤ (lines.map List.length).sum ∧
      ∀ r ∈ rows, ∃ l ∈ lines, strLen r.1 ≤ 3 * l.length := by
  obtain ⟨h1, h2⟩ := h
  induction lines generalizing rows with
  | nil =>
    have : rows = [] := List.length_eq_zero_iff.mp (by simpa using h1.symm)
    subst this
    simp
  | cons l lines ih =>
    cases rows with
    | nil => simp at h1
    | cons r rows =>
      obtain ⟨i1, i2⟩ := ih (rows := rows) (by simpa using h1) fun i l r hl hr => h2 (i + 1) l r (by simpa using hl) (by simpa using hr)
      obtain ⟨s, ps, a1, a2, a3⟩ := h2 0 l r rfl rfl
      obtain ⟨b1, b2⟩ := a2.size
      obtain ⟨c1, c2⟩ := decodeToken_size a1
      have hp : ps.length = r.2.length := by simpa using congrArg List.length a3
      constructor
      · simp only [List.map_cons, List.flatten_cons, List.length_append, List.sum_cons]
        simp only [List.length_cons] at b1
        omega
      · intro x hx
        rcases List.mem_cons.mp hx with rfl | hx
        · have := b2 x.1 (by simp)
          exact ⟨l, by simp, by omega⟩
        · obtain ⟨l', hl', h'⟩ := i2 x hx
          exact ⟨l', List.mem_cons_of_mem _ hl', h'⟩

omit [Scalar F32] in
theorem le_sum_of_mem {l : Bytes} {ls : List Bytes} (h : l ∈ ls) : l.length ≤ (ls.map List.length).sum := by
  induction ls with
  | nil => cases h
  | cons x ls ih =>
    simp only [List.map_cons, List.sum_cons]
    rcases List.mem_cons.mp h with rfl | h
    · omega
    · have := ih h; omega

omit [Scalar F32] in
theorem table_fits [FloatText F32] {lossy : Bool} {d : Bytes} (hd : d.length ≤ 2 ^ 58) {p : Nat} {lines : List Bytes}
    (hl : IsLines (d.drop p) lines) {rows : List (Str × List F32)} {k : Nat} (h : LinesHave lossy lines rows)
    (hne : rows ≠ []) (hnd : (rows.map (·.1)).Nodup) (hk : (rows.map (·.2)).flatten.length = rows.length * k)
    {e : Embeddings T SimpleVocab (NdArray F32) F32}
    (he : e = ⟨none, ⟨Mat.ofFlat rows.length k (rows.map (·.2)).flatten⟩,
      ⟨indexMap (rows.map (·.1)), rows.map (·.1)⟩, none⟩) :
    SimpleFits e ∧ (∀ w ∈ e.vocab.words, strLen w ≤ 3 * d.length) ∧ e.storage.inner.cols ≤ d.length := by
  subst he
  obtain ⟨s1, s2⟩ := hl.size
  obtain ⟨t1, t2⟩ := h.size
  rw [List.length_drop] at s1 s2
  have hll := h.1
  have hi : isizeMax = 2 ^ 63 - 1 := rfl
  have hpos := List.length_pos_iff.mpr hne
  have hkk : k ≤ rows.length * k := Nat.le_mul_of_pos_left k hpos
  refine ⟨⟨rfl, SimpleVocab.new_eq_ok.mpr ⟨hnd, rfl⟩, ?_, ?_, Mat.ofFlat_wf (by omega), ?_, by simp⟩, ?_, ?_⟩
  · simp only [List.length_map]; omega
  · simpa [Mat.nrows] using Mat.ofFlat_nrows rows.length k (rows.map (·.2)).flatten
  · simp only [Mat.ofFlat_nrows, Mat.ofFlat_cols]; omega
  · intro w hw
    obtain ⟨x, hx, rfl⟩ := List.mem_map.mp (show w ∈ rows.map _ from hw)
    obtain ⟨l, hl1, hl2⟩ := t2 x hx
    have := le_sum_of_mem hl1
    omega
  · simp only [Mat.ofFlat_cols]; omega

/-- **C80** (text). What the text readers return, with or without a first line, normalised or raw, strict or lossy, is
converted to the finalfusion format without loss. -/
theorem c80_text [Toml T] [FloatText F32] (lossy : Bool) (d : Bytes) (pos : Nat)
    (e : Embeddings T SimpleVocab (NdArray F32) F32)
    (h : readText lossy d pos = .ok e ∨ readTextRaw lossy d pos = .ok e ∨
      readTextDims lossy d pos = .ok e ∨ readTextDimsRaw lossy d pos = .ok e)
    (hsize : ConvertSize d e.vocab.words e.storage.inner) : Converts .simple e := by
  have hd : d.length ≤ 2 ^ 58 := by
    rcases hsize with h | h
    · have := h.1; omega
    · exact h.1
  have raw : ∀ {e0 : Embeddings T SimpleVocab (NdArray F32) F32},
      readTextRaw lossy d pos = .ok e0 ∨ readTextDimsRaw lossy d pos = .ok e0 →
      SimpleFits e0 ∧ (∀ w ∈ e0.vocab.words, strLen w ≤ 3 * d.length) ∧ e0.storage.inner.cols ≤ d.length := by
    rintro e0 (h | h)
    · obtain ⟨rows, k, a1, a2, a3, a4, -, a5⟩ :=
        (c50_accepts none trivial lossy d pos _ (textLines_spec _) e0).mp h
      exact table_fits hd (textLines_spec _) a1 a2 a3 a4 a5
    · obtain ⟨n, k, p1, p2, lines, rows, -, -, -, -, b1, b2, rfl, b4, b5, b6, b7⟩ := (c50_dims_accepts lossy d pos e0).mp h
      exact table_fits hd b1 b2 (fun h0 => b4 (by rw [h0]; rfl)) b5 b6 b7
  have fin : ∀ {e0 : Embeddings T SimpleVocab (NdArray F32) F32},
      readTextRaw lossy d pos = .ok e0 ∨ readTextDimsRaw lossy d pos = .ok e0 → normalizeRead e0 = .ok e →
      Converts .simple e := by
    intro e0 h1 h2
    obtain ⟨f1, f2, f3⟩ := raw h1
    obtain ⟨g1, g2, g3, g4⟩ := f1.normalized h2
    obtain ⟨s1, s2⟩ := hsize.fits (by rw [g2]; exact f2) fun _ => by rw [g3]; exact f3
    exact g1.converts s1 s2
  have fin' : readTextRaw lossy d pos = .ok e ∨ readTextDimsRaw lossy d pos = .ok e → Converts .simple e := by
    intro h
    obtain ⟨f1, f2, f3⟩ := raw h
    obtain ⟨s1, s2⟩ := hsize.fits f2 fun _ => f3
    exact f1.converts s1 s2
  rcases h with h | h | h | h
  · obtain ⟨e0, h1, h2⟩ := Res.bind_eq_ok.mp h
    exact fin (.inl h1) h2
  · exact fin' (.inl h)
  · obtain ⟨e0, h1, h2⟩ := Res.bind_eq_ok.mp h
    exact fin (.inr h1) h2
  · exact fin' (.inr h)

end Simple


/-! ## C80: fastText and floret -/

section FastText
variable {T : Type} [Scalar F32] [ScalarNat F32]

omit [Scalar F32] [ScalarNat F32] in
theorem length_le_flatMap_of_mem {α β : Type} {f : α → List β} {x : α} {l : List α} (h : x ∈ l) :
    (f x).length ≤ (l.flatMap f).length := by
  induction l with
  | nil => cases h
  | cons y l ih =>
    rw [List.flatMap_cons, List.length_append]
    rcases List.mem_cons.mp h with rfl | h
    · omega
    · have := ih h; omega

omit [Scalar F32] [ScalarNat F32] in
theorem averageRows_length {F : Type} [Scalar F] [ScalarNat F] {k : Nat} {row : List F} {subs : List (List F)}
    (h : row.length = k) (hs : ∀ r ∈ subs, r.length = k) : (averageRows row subs).length = k := by
  unfold averageRows
  rw [List.length_map]
  induction subs generalizing row with
  | nil => exact h
  | cons r subs ih =>
    rw [List.foldl_cons]
    exact ih (by rw [List.length_zipWith, h, hs r (by simp), Nat.min_self]) fun x hx => hs x (List.mem_cons_of_mem _ hx)

omit [Scalar F32] [ScalarNat F32] in
theorem FtRows.wf {F : Type} [Scalar F] [ScalarNat F] {v : FastTextSubwordVocab} {ws : List Str}
    {rows rows' : List (List F)} {norms : List F} {k : Nat} (h : FtRows v ws rows rows' norms)
    (hr : ∀ r ∈ rows, r.length = k) : ∀ r ∈ rows', r.length = k := by
  intro r hr'
  obtain ⟨i, hi⟩ := List.mem_iff_getElem?.mp hr'
  by_cases hw : ws.length ≤ i
  · rw [h.subwords i hw] at hi
    exact hr r (List.mem_of_getElem? hi)
  · obtain ⟨out, norm, h1, -, row, avg, h3, h4, rfl, -⟩ := h.words i _ (List.getElem?_eq_getElem (by omega))
    rw [hi] at h1
    cases h1
    rw [l2Normalize_length]
    rcases h4 with ⟨-, rfl⟩ | ⟨is, subs, -, h6, rfl⟩
    · exact hr _ (List.mem_of_getElem? h3)
    · refine averageRows_length (hr _ (List.mem_of_getElem? h3)) fun x hx => ?_
      have : some x ∈ is.map (rows[·]?) := by rw [h6]; exact List.mem_map_of_mem hx
      obtain ⟨j, -, hj⟩ := List.mem_map.mp this
      exact hr x (List.mem_of_getElem? hj)

/-- **C80** (fastText). What the fastText reader returns is converted to the finalfusion format without loss, if the
TOML library reproduces the metadata. -/
theorem c80_fasttext [Toml T] [ConfigToml T] (lossy : Bool) (d : Bytes) (pos q : Nat)
    (e : Embeddings T FastTextSubwordVocab (NdArray F32) F32) (h : readFastText lossy d pos = .ok (e, q))
    (hm : MetadataOk e) (hsize : ConvertSize d e.vocab.words e.storage.inner) : Converts .fastText e := by
  obtain ⟨f, ws, ht, hvo, hmo, hrl, -, ⟨ix, hix, hv⟩, -, norms, hn, hc, hr⟩ := (c53_accepts lossy d pos q e).mp h
  obtain ⟨-, hw, -⟩ := ft_vocab_fields hix hv
  have hlen := ht.length_le
  have hi : isizeMax = 2 ^ 63 - 1 := rfl
  have hwl : ws.length < 2 ^ 32 := by rw [words_length hvo]; exact hvo.fits.size
  have hfl : f.vocabBytes.length + f.matrixBytes.length ≤ d.length := by
    unfold FtFile.bytes at hlen
    simp only [List.length_append] at hlen
    omega
  have hwords : ∀ w ∈ ws, strLen w ≤ 3 * d.length := by
    intro w hw
    have : Res.ok w ∈ f.entries.map (fun e => decodeToken lossy e.word) := by
      rw [hvo.decode]; exact List.mem_map_of_mem hw
    obtain ⟨x, hx, hxw⟩ := List.mem_map.mp this
    have h1 := (decodeToken_size hxw).1
    have h2 : x.bytes.length ≤ (f.entries.flatMap FtEntry.bytes).length := length_le_flatMap_of_mem hx
    have h3 : x.word.length ≤ x.bytes.length := by
      unfold FtEntry.bytes
      simp only [List.length_append]
      omega
    unfold FtFile.vocabBytes at hfl
    simp only [List.length_append] at hfl
    omega
  have hcols : e.storage.inner.rows ≠ [] → e.storage.inner.cols ≤ d.length := by
    intro hne
    have h0 : f.rows.length ≠ 0 := by
      intro h0
      have := hr.rowsLen
      rw [List.length_map, h0] at this
      exact hne (List.length_eq_zero_iff.mp this)
    have h1 : f.rows.flatten.length = f.rows.length * f.cols := length_flatten_of hmo.rect
    have h2 := Nat.le_mul_of_pos_left f.cols (Nat.pos_of_ne_zero h0)
    unfold FtFile.matrixBytes at hfl
    simp only [List.length_append, encodeF32s_length] at hfl
    rw [hc]
    omega
  obtain ⟨s1, s2⟩ := hsize.fits (by rw [hw]; exact hwords) hcols
  rw [hw] at s1
  have hfit : WordsFit ws := ⟨s1, by omega⟩
  have hwf : e.storage.inner.WF := by
    intro r hrr
    rw [hc]
    exact hr.wf (k := f.cols) (by
      intro r hr
      obtain ⟨x, hx, rfl⟩ := List.mem_map.mp hr
      rw [List.length_map]
      exact hmo.rect x hx) r hrr
  have hrows : e.storage.inner.rows.length = f.rows.length := by
    rw [hr.rowsLen, List.length_map]
  refine converts_of hm (fun _ => rfl) rfl
    (c08_fasttext_partial _ ix hix ws _ _ _ hv hfit.1 hfit.2 hvo.fits.minN hvo.fits.maxN)
    ⟨_, ix, ws, _, _, hix, hv, hfit, hvo.fits.minN, hvo.fits.maxN⟩ ⟨hwf, s2, ?_, ?_⟩ ?_
  · unfold Mat.nrows
    rw [hrows, hrl]
    have := hvo.fits.bucket
    omega
  · unfold Mat.nrows
    rw [hrows, hc]
    exact hmo.alloc.2
  · intro n hn'
    rw [hn] at hn'
    cases hn'
    have := hr.normsLen
    dsimp only
    omega

end FastText

section Floret
variable {T : Type} [Scalar F32] [FloatText F32]

/-- **C80** (floret). What the floret reader returns is converted to the finalfusion format without loss. The "words"
whose sizes matter are the boundary markers. -/
theorem c80_floret [Toml T] (d : Bytes) (pos : Nat) (e : Embeddings T FloretSubwordVocab (NdArray F32) F32)
    (h : Embeddings.readFloret d pos = .ok e) (hsize : ConvertSize d [e.vocab.bow, e.vocab.eow] e.storage.inner) :
    Converts .floret e := by
  obtain ⟨hd, p, lines, rows, h1, h2, h3, h4, h5, h6, h7, h8, h9, h10, h11, h12, h13, h14, hv⟩ :=
    (c60_accepts d pos e).mp h
  have hi : isizeMax = 2 ^ 63 - 1 := rfl
  have hix : FloretIndexer.new hd.nBuckets hd.nHashes (UInt32.ofNat hd.seed) =
      .ok ⟨hd.nBuckets, UInt32.ofNat hd.seed, hd.nHashes⟩ := FloretIndexer.new_eq_ok.mpr ⟨⟨by omega, h6⟩, h2, rfl⟩
  have hhead : hd.minN < 2 ^ 32 ∧ hd.maxN < 2 ^ 32 ∧ strLen hd.bow ≤ 3 * d.length ∧ strLen hd.eow ≤ 3 * d.length := by
    unfold readFloretHead at h1
    obtain ⟨_, _, -, h1⟩ := Rd.bind_ok.mp h1
    obtain ⟨_, _, -, h1⟩ := Rd.bind_ok.mp h1
    obtain ⟨_, _, -, h1⟩ := Rd.bind_ok.mp h1
    obtain ⟨_, _, -, h1⟩ := Rd.bind_ok.mp h1
    obtain ⟨_, _, -, h1⟩ := Rd.bind_ok.mp h1
    obtain ⟨_, _, -, h1⟩ := Rd.bind_ok.mp h1
    obtain ⟨bow, _, hb, h1⟩ := Rd.bind_ok.mp h1
    obtain ⟨eow, _, he, h1⟩ := Rd.bind_ok.mp h1
    obtain ⟨rfl, -⟩ := Prod.mk.inj (Res.ok.inj h1)
    exact ⟨Nat.mod_lt _ (by decide), Nat.mod_lt _ (by decide), readToken_size hb, readToken_size he⟩
  obtain ⟨hmin, hmax, hb, he⟩ := hhead
  obtain ⟨hf1, hf2⟩ : e.vocab.bow = hd.bow ∧ e.vocab.eow = hd.eow := by
    obtain ⟨_, _, hv'⟩ := SubwordVocab.newWithBoundaries_eq_ok.mp hv
    rw [hv']
    exact ⟨rfl, rfl⟩
  have hcols : e.storage.inner.cols ≤ d.length := by
    rw [h14]
    have hll : 0 < lines.length := by omega
    have hrr : 0 < rows.length := by omega
    obtain ⟨⟨s, t, ps, a1, a2, a3⟩, a4⟩ := h11 0 _ _ (List.getElem?_eq_getElem hll) (List.getElem?_eq_getElem hrr)
    obtain ⟨b1, -⟩ := a2.size
    have hp : ps.length = rows[0].length := by simpa using congrArg List.length a3
    have c1 := length_le_strLen s
    unfold strLen at c1
    rw [a1] at c1
    have c2 := h8.size.2
    have c3 := le_sum_of_mem (List.getElem_mem hll)
    rw [List.length_drop] at c2
    simp only [List.length_cons] at b1
    dsimp only
    omega
  obtain ⟨s1, s2⟩ := hsize.fits (by
    intro w hw
    simp only [List.mem_cons, List.not_mem_nil, or_false] at hw
    rcases hw with rfl | rfl
    · rw [hf1]; exact hb
    · rw [hf2]; exact he) fun _ => hcols
  have hb' : strLen hd.bow < 2 ^ 32 := hf1 ▸ s1 _ (by simp)
  have he' : strLen hd.eow < 2 ^ 32 := hf2 ▸ s1 _ (by simp)
  refine converts_of (by intro m hm; rw [h12] at hm; cases hm) (fun _ => rfl) rfl
    (c10_floret_partial _ _ _ _ hix _ _ _ _ _ hv hb' he' hmin hmax)
    ⟨_, _, _, _, _, _, _, _, hix, hv, hb', he', hmin, hmax⟩ ⟨?_, s2, ?_, ?_⟩ (by intro n hn; rw [h13] at hn; cases hn)
  · rw [h14]
    intro r hr
    obtain ⟨i, hi⟩ := List.mem_iff_getElem?.mp hr
    have hil : i < lines.length := by
      have := (List.getElem?_eq_some_iff.mp hi).1
      dsimp only at this
      omega
    exact (h11 i _ _ (List.getElem?_eq_getElem hil) hi).2
  · rw [h14]
    unfold Mat.nrows
    dsimp only
    have := Nat.le_mul_of_pos_right hd.nBuckets (Nat.pos_of_ne_zero h3)
    omega
  · rw [h14]
    unfold Mat.nrows
    dsimp only
    rw [h10]
    exact h7

end Floret


/-! ## Examples -/

attribute [local instance] exampleScalar exampleFloatText exampleScalarNat exampleToml

/-- Words, components and number of columns of a word2vec file. -/
def exampleW2vRead (d : Bytes) : Res (List Str × List (List F32) × Nat × Nat) :=
  (readWord2vecRaw false d 0 : Res (Embeddings Str SimpleVocab (NdArray F32) F32 × Nat)).map
    fun r => (r.1.vocab.words, r.1.storage.inner.rows, r.1.storage.inner.cols, r.2)

/-- The hypotheses of `c48_accepts` and `c80_word2vec` can be met: two words of one component. -/
example : exampleW2vRead (ascii "2 1\na " ++ [1, 0, 0, 0, 10] ++ ascii "b " ++ [2, 0, 0, 0, 10]) =
    .ok ([['a'], ['b']], [[1], [2]], 1, 17) := by
  decide +kernel

/-- A panic covered by `c48_panics`: both records are there and have the same word after trimming. -/
example : exampleW2vRead (ascii "2 1\na " ++ [1, 0, 0, 0, 10] ++ ascii "a " ++ [2, 0, 0, 0, 10]) = .panic := by
  decide +kernel

/-- A panic covered by `c48_panics`: the promised matrix cannot be allocated. -/
example : exampleW2vRead (ascii "4611686018427387904 2\n") = .panic := by
  decide +kernel

/-- The hypotheses of `c80_text` can be met. -/
example : (readTextRaw false (ascii "a 1 2\nb 3 4\n") 0 : Res (Embeddings Str SimpleVocab (NdArray F32) F32)).map
      (fun e => (e.vocab.words, e.storage.inner.rows)) = .ok ([['a'], ['b']], [[1, 2], [3, 4]]) ∧
    (readTextDimsRaw false (ascii "2 2\na 1 2\nb 3 4\n") 0 : Res (Embeddings Str SimpleVocab (NdArray F32) F32)).map
      (fun e => (e.vocab.words, e.storage.inner.rows)) = .ok ([['a'], ['b']], [[1, 2], [3, 4]]) := by
  decide +kernel

/-- The hypotheses of `c80_floret` can be met. -/
example : (Embeddings.readFloret (ascii "2 2 3 6 3 7 [ ]\n0 1 2\n1 3 4\n") 0 :
      Res (Embeddings Str FloretSubwordVocab (NdArray F32) F32)).map
      (fun e => (e.vocab.bow, e.vocab.eow, e.storage.inner.rows)) = .ok (['['], [']'], [[1, 2], [3, 4]]) := by
  decide +kernel

/-- A conversion of configurations to metadata: all become the same text. -/
@[instance_reducible] def exampleConfigText : ConfigToml Str := ⟨fun _ => some "a = 1".toList⟩

attribute [local instance] exampleConfigText in
/-- The hypotheses of `c80_fasttext` can be met. -/
example : (Embeddings.readFastText false exampleFtFile.bytes 0 :
      Res (Embeddings Str FastTextSubwordVocab (NdArray F32) F32 × Nat)).map
        (fun r => (r.1.vocab.words, r.1.storage.inner.nrows, r.1.storage.inner.cols, r.1.metadata.map (·.inner))) =
    .ok ([['a'], ['b', 'c']], 5, 2, some "a = 1".toList) ∧
    Toml.parse (Toml.print "a = 1".toList) = some "a = 1".toList := by
  decide +kernel

/-- **C80** (what is excluded). A word2vec file of thirteen bytes, with no words and 2^32 components per word, is read, but
the number of components is lost in the conversion. -/
theorem c80_wide_false : ∃ (d : Bytes) (q : Nat) (e : Embeddings Str SimpleVocab (NdArray F32) F32),
    d.length = 13 ∧ readWord2vecRaw false d 0 = .ok (e, q) ∧ e.storage.inner.cols = 2 ^ 32 ∧ ¬ Converts .simple e := by
  refine ⟨ascii "0 4294967296\n", 13, ⟨none, ⟨⟨2 ^ 32, []⟩⟩, ⟨indexMap [], []⟩, none⟩, by decide +kernel, ?_, rfl, ?_⟩
  · refine readWord2vecRaw_ok.mpr ⟨0, 2 ^ 32, 2, 13, [], by decide +kernel, by decide +kernel, ?_, by decide, rfl, by simp, rfl⟩
    decide +kernel
  · intro h
    have h2 := congrArg (fun r => r.map fun e => e.storage.inner.cols) h.2.1
    revert h2
    decide +kernel

end FF
