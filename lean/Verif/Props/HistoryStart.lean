import Verif.Props.History
import Verif.Props.Convert

/-!
# C114: what the readers of other formats return is usable
-/

namespace FF

open Res Embeddings

section
variable {T : Type} [Scalar F32]

theorem SimpleFits.sound {e : Embeddings T SimpleVocab (NdArray F32) F32} (h : SimpleFits e) :
    Sound (e.into VocabWrap.simple StorageWrap.ndArray) := by
  have hw := (c22_simple _ _ h.vocab).2.1
  refine ⟨⟨_, h.vocab⟩, (by intro v h; cases h), ⟨.ndArray e.storage, h.wf, .inl rfl⟩, ?_, ?_⟩
  · show Res.ok (Vocab.wordsLen e.vocab) = .ok e.storage.inner.rows.length
    rw [h.rows, hw]
  · intro n hn
    rw [h.norms n hn]
    exact hw.symm

/-- **C114** (start: word2vec). Whatever the word2vec readers return is usable. -/
theorem c114_word2vec (lossy : Bool) (d : Bytes) (pos q : Nat) (e : Embeddings T SimpleVocab (NdArray F32) F32)
    (h : readWord2vec lossy d pos = .ok (e, q) ∨ readWord2vecRaw lossy d pos = .ok (e, q)) :
    Sound (e.into VocabWrap.simple StorageWrap.ndArray) := by
  rcases h with h | h
  · unfold readWord2vec at h
    obtain ⟨e0, p1, h1, h⟩ := Rd.bind_ok.mp h
    obtain ⟨h2, rfl⟩ := Rd.lift_ok.mp h
    exact ((word2vec_fits h1).1.normalized h2).1.sound
  · exact (word2vec_fits h).1.sound

/-- **C114** (start: text). Whatever the text readers return is usable. -/
theorem c114_text [FloatText F32] (lossy : Bool) (d : Bytes) (pos : Nat) (e : Embeddings T SimpleVocab (NdArray F32) F32)
    (h : readText lossy d pos = .ok e ∨ readTextRaw lossy d pos = .ok e ∨
      readTextDims lossy d pos = .ok e ∨ readTextDimsRaw lossy d pos = .ok e) (hd : d.length ≤ 2 ^ 58) :
    Sound (e.into VocabWrap.simple StorageWrap.ndArray) := by
  have raw : ∀ {e0 : Embeddings T SimpleVocab (NdArray F32) F32},
      readTextRaw lossy d pos = .ok e0 ∨ readTextDimsRaw lossy d pos = .ok e0 → SimpleFits e0 := by
    rintro e0 (h | h)
    · obtain ⟨rows, k, a1, a2, a3, a4, -, a5⟩ :=
        (c50_accepts none trivial lossy d pos _ (textLines_spec _) e0).mp h
      exact (table_fits hd (textLines_spec _) a1 a2 a3 a4 a5).1
    · obtain ⟨n, k, p1, p2, lines, rows, -, -, -, -, b1, b2, rfl, b4, b5, b6, b7⟩ := (c50_dims_accepts lossy d pos e0).mp h
      exact (table_fits hd b1 b2 (fun h0 => b4 (by rw [h0]; rfl)) b5 b6 b7).1
  rcases h with h | h | h | h
  · obtain ⟨e0, h1, h2⟩ := Res.bind_eq_ok.mp h
    exact ((raw (.inl h1)).normalized h2).1.sound
  · exact (raw (.inl h)).sound
  · obtain ⟨e0, h1, h2⟩ := Res.bind_eq_ok.mp h
    exact ((raw (.inr h1)).normalized h2).1.sound
  · exact (raw (.inr h)).sound

/-- **C114** (start: fastText). Whatever the fastText reader returns is usable, if the n-gram lengths are and if there are buckets
(lookups of unknown words panic otherwise, see C25 and C29). -/
theorem c114_fasttext [ScalarNat F32] [ConfigToml T] (lossy : Bool) (d : Bytes) (pos q : Nat)
    (e : Embeddings T FastTextSubwordVocab (NdArray F32) F32) (h : readFastText lossy d pos = .ok (e, q))
    (hm : 1 ≤ e.vocab.minN) (hM : e.vocab.minN ≤ e.vocab.maxN) (hb : e.vocab.indexer.buckets ≠ 0) :
    Sound (e.into VocabWrap.fastText StorageWrap.ndArray) := by
  obtain ⟨f, ws, ht, hvo, hmo, hrl, -, ⟨ix, hix, hv⟩, -, norms, hn, hc, hr⟩ := (c53_accepts lossy d pos q e).mp h
  obtain ⟨-, hw, hwl, hvl, hi, h1, h2, -⟩ := ft_vocab_fields hix hv
  rw [h1] at hm hM
  rw [h2] at hM
  rw [hi] at hb
  have hb : f.head.bucket ≠ 0 := by
    obtain ⟨_, hix'⟩ := FastTextIndexer.new_eq_ok.mp hix
    rw [hix'] at hb
    intro h0
    rw [h0] at hb
    exact hb rfl
  refine ⟨⟨_, ix, ws, _, _, _, _, hix, hb, hv, hm, hM⟩, (by intro v h; cases h), ⟨.ndArray e.storage, ?_, .inl rfl⟩, ?_, ?_⟩
  · intro r hrr
    rw [hc]
    exact hr.wf (k := f.cols) (by
      intro r hr
      obtain ⟨x, hx, rfl⟩ := List.mem_map.mp hr
      rw [List.length_map]
      exact hmo.rect x hx) r hrr
  · show Vocab.vocabLen e.vocab = .ok e.storage.inner.rows.length
    rw [hvl, hr.rowsLen, List.length_map, hrl]
  · intro n hn'
    have hn' : n ∈ e.norms := hn'
    rw [hn] at hn'
    cases hn'
    exact hr.normsLen.trans hwl.symm

/-- **C114** (start: floret). Whatever the floret reader returns is usable, if n-grams have at least one character (lookups panic
otherwise, see C25). -/
theorem c114_floret [FloatText F32] (d : Bytes) (pos : Nat) (e : Embeddings T FloretSubwordVocab (NdArray F32) F32)
    (h : Embeddings.readFloret d pos = .ok e) (hm : 1 ≤ e.vocab.minN) : Sound (e.into VocabWrap.floret StorageWrap.ndArray) := by
  obtain ⟨hd, p, lines, rows, h1, h2, h3, h4, h5, h6, h7, h8, h9, h10, h11, h12, h13, h14, hv⟩ :=
    (c60_accepts d pos e).mp h
  have hix : FloretIndexer.new hd.nBuckets hd.nHashes (UInt32.ofNat hd.seed) =
      .ok ⟨hd.nBuckets, UInt32.ofNat hd.seed, hd.nHashes⟩ := FloretIndexer.new_eq_ok.mpr ⟨⟨by omega, h6⟩, h2, rfl⟩
  obtain ⟨k1, k2, k3, k4, k5, k6⟩ := parts_of hv
  rw [k2] at hm
  refine ⟨⟨_, _, _, _, [], _, _, _, _, hix, hv, hm, h4⟩, ?_, ⟨.ndArray e.storage, ?_, .inl rfl⟩, ?_, ?_⟩
  · intro v hvv
    cases hvv
    exact k1
  · show e.storage.inner.WF
    rw [h14]
    intro r hr
    obtain ⟨i, hi⟩ := List.mem_iff_getElem?.mp hr
    have hil : i < lines.length := by
      have := (List.getElem?_eq_some_iff.mp hi).1
      dsimp only at this
      omega
    exact (h11 i _ _ (List.getElem?_eq_getElem hil) hi).2
  · show Vocab.vocabLen e.vocab = .ok e.storage.inner.rows.length
    rw [h14]
    obtain ⟨_, ⟨ub, hub, _⟩, hv'⟩ := SubwordVocab.newWithBoundaries_eq_ok.mp hv
    rw [hv']
    show _ = Res.ok rows.length
    rw [h10]
    have hub' : ub = hd.nBuckets := by
      have : (Res.ok hd.nBuckets : Res Nat) = .ok ub := hub
      cases this; rfl
    subst hub'
    simp only [Vocab.vocabLen, hub, Res.ok_bind, Res.pure_eq]
    rw [(indexMap_len_iff []).mpr List.nodup_nil]
    exact congrArg Res.ok (Nat.zero_add _)
  · intro n hn
    have hn : n ∈ e.norms := hn
    rw [h13] at hn
    cases hn

end

/-! ## Examples -/

section
attribute [local instance] exampleScalar exampleFloatText exampleScalarNat exampleToml exampleConfigText

/-- The hypotheses of `c114_word2vec` can be met. -/
example : ∃ (e : Embeddings Str SimpleVocab (NdArray F32) F32) (q : Nat),
    readWord2vecRaw false (ascii "2 1\na " ++ [1, 0, 0, 0, 10] ++ ascii "b " ++ [2, 0, 0, 0, 10]) 0 = .ok (e, q) ∧
    Sound (e.into VocabWrap.simple StorageWrap.ndArray) := by
  have h : ((readWord2vecRaw false (ascii "2 1\na " ++ [1, 0, 0, 0, 10] ++ ascii "b " ++ [2, 0, 0, 0, 10]) 0 :
      Res (Embeddings Str SimpleVocab (NdArray F32) F32 × Nat)).map fun _ => ()) = .ok () := by decide +kernel
  cases hr : (readWord2vecRaw false (ascii "2 1\na " ++ [1, 0, 0, 0, 10] ++ ascii "b " ++ [2, 0, 0, 0, 10]) 0 :
      Res (Embeddings Str SimpleVocab (NdArray F32) F32 × Nat)) with
  | ok r => exact ⟨r.1, r.2, rfl, c114_word2vec false _ 0 _ _ (.inr hr)⟩
  | err k => rw [hr] at h; cases h
  | panic => rw [hr] at h; cases h

/-- The hypotheses of `c114_text` can be met. -/
example : ∃ e : Embeddings Str SimpleVocab (NdArray F32) F32,
    readTextRaw false (ascii "a 1 2\nb 3 4\n") 0 = .ok e ∧ Sound (e.into VocabWrap.simple StorageWrap.ndArray) := by
  have h : ((readTextRaw false (ascii "a 1 2\nb 3 4\n") 0 :
      Res (Embeddings Str SimpleVocab (NdArray F32) F32)).map fun _ => ()) = .ok () := by decide +kernel
  cases hr : (readTextRaw false (ascii "a 1 2\nb 3 4\n") 0 : Res (Embeddings Str SimpleVocab (NdArray F32) F32)) with
  | ok e => exact ⟨e, rfl, c114_text false _ 0 _ (.inr (.inl hr)) (by decide +kernel)⟩
  | err k => rw [hr] at h; cases h
  | panic => rw [hr] at h; cases h

/-- The hypotheses of `c114_fasttext` can be met. -/
example : ∃ (e : Embeddings Str FastTextSubwordVocab (NdArray F32) F32) (q : Nat),
    readFastText false exampleFtFile.bytes 0 = .ok (e, q) ∧ 1 ≤ e.vocab.minN ∧ e.vocab.minN ≤ e.vocab.maxN ∧
    e.vocab.indexer.buckets ≠ 0 := by
  have h : ((readFastText false exampleFtFile.bytes 0 :
      Res (Embeddings Str FastTextSubwordVocab (NdArray F32) F32 × Nat)).map
        fun r => (decide (1 ≤ r.1.vocab.minN), decide (r.1.vocab.minN ≤ r.1.vocab.maxN), decide (r.1.vocab.indexer.buckets ≠ 0))) =
      .ok (true, true, true) := by decide +kernel
  cases hr : (readFastText false exampleFtFile.bytes 0 : Res (Embeddings Str FastTextSubwordVocab (NdArray F32) F32 × Nat)) with
  | ok r =>
    rw [hr] at h
    have h := Res.ok.inj h
    simp only [Prod.mk.injEq, decide_eq_true_eq] at h
    exact ⟨r.1, r.2, rfl, h.1, h.2.1, h.2.2⟩
  | err k => rw [hr] at h; cases h
  | panic => rw [hr] at h; cases h

/-- The hypotheses of `c114_floret` can be met. -/
example : ∃ e : Embeddings Str FloretSubwordVocab (NdArray F32) F32,
    Embeddings.readFloret (ascii "2 2 3 6 3 7 [ ]\n0 1 2\n1 3 4\n") 0 = .ok e ∧ 1 ≤ e.vocab.minN := by
  have h : ((Embeddings.readFloret (ascii "2 2 3 6 3 7 [ ]\n0 1 2\n1 3 4\n") 0 :
      Res (Embeddings Str FloretSubwordVocab (NdArray F32) F32)).map fun e => decide (1 ≤ e.vocab.minN)) = .ok true := by
    decide +kernel
  cases hr : (Embeddings.readFloret (ascii "2 2 3 6 3 7 [ ]\n0 1 2\n1 3 4\n") 0 :
      Res (Embeddings Str FloretSubwordVocab (NdArray F32) F32)) with
  | ok e => rw [hr] at h; exact ⟨e, rfl, of_decide_eq_true (Res.ok.inj h)⟩
  | err k => rw [hr] at h; cases h
  | panic => rw [hr] at h; cases h

/-- A history with a quantization: the metadata is set, then the matrix is quantized. -/
example : ∃ e' : Wrapped Str, History true false exampleLookup e' ∧ (∃ a, e'.storage = .quantized a) ∧ Sound e' := by
  have h : History true false exampleLookup ({ exampleLookup with metadata := some ⟨['x']⟩ } : Wrapped Str) :=
    .metadata (some ⟨['x']⟩) (.none _)
  have hq := History.quantizeArray (T := Str) rfl (firstRows F32) firstRows_contract 1 1 10 1 false _ h rfl rfl
  exact ⟨_, hq, ⟨_, rfl⟩, (c114_history hq exampleLookup_sound).1⟩

end

end FF
