import Verif.Lemmas.Text
import Verif.Lemmas.Vocab
import Verif.Props.Lookup

/-!
# C48: the word2vec format
-/

namespace FF

open Rd

/-! ## Trimming -/

/-- Neither the first nor the last character satisfies `p`. -/
def CleanEnds (p : Char → Bool) (w : Str) : Prop :=
  (∀ c, w.head? = some c → p c = false) ∧ (∀ c, w.getLast? = some c → p c = false)

theorem dropWhile_head {p : Char → Bool} {w : Str} (h : ∀ c, w.head? = some c → p c = false) :
    w.dropWhile p = w := by
  cases w with
  | nil => rfl
  | cons c w => simp [List.dropWhile, h c rfl]

theorem trimBy_clean {p : Char → Bool} {w : Str} (h : CleanEnds p w) : trimBy p w = w := by
  unfold trimBy
  rw [dropWhile_head h.1, dropWhile_head (fun c hc => h.2 c (by simpa using hc)), List.reverse_reverse]

theorem head_dropWhile (p : Char → Bool) (w : Str) : ∀ c, (w.dropWhile p).head? = some c → p c = false := by
  intro c hc
  induction w with
  | nil => simp at hc
  | cons a w ih =>
    simp only [List.dropWhile] at hc
    split at hc
    · exact ih hc
    · rename_i hp
      simp at hc; subst hc
      simpa using hp

theorem dropWhile_suffix' (p : Char → Bool) (w : Str) : w.dropWhile p <:+ w := List.dropWhile_suffix p

/-- The result of trimming has clean ends. -/
theorem clean_trimBy (p : Char → Bool) (w : Str) : CleanEnds p (trimBy p w) := by
  unfold trimBy
  constructor
  · intro c hc
    have h1 := head_dropWhile p w
    generalize w.dropWhile p = u at *
    -- the reversed `dropWhile` keeps a prefix of `u`
    obtain ⟨t, ht⟩ := List.dropWhile_suffix (l := u.reverse) p
    have hu : u = (u.reverse.dropWhile p).reverse ++ t.reverse := by
      have := congrArg List.reverse ht
      simpa using this.symm
    apply h1
    rw [hu]
    cases hv : (u.reverse.dropWhile p).reverse with
    | nil => rw [hv] at hc; simp at hc
    | cons a v => rw [hv] at hc; simpa using hc
  · intro c hc
    rw [List.getLast?_reverse] at hc
    exact head_dropWhile p _ c hc

theorem mem_trimBy {p : Char → Bool} {w : Str} {c : Char} (h : c ∈ trimBy p w) : c ∈ w := by
  unfold trimBy at h
  rw [List.mem_reverse] at h
  have h1 := (List.dropWhile_suffix (l := (w.dropWhile p).reverse) p).subset h
  rw [List.mem_reverse] at h1
  exact (List.dropWhile_suffix (l := w) p).subset h1

/-! ## Words that the format can represent -/

/-- No space inside, no white space at the ends. -/
def Word2vecWord (w : Str) : Prop := ' ' ∉ w ∧ CleanEnds isWhitespace w

theorem Word2vecWord.bytes {w : Str} (h : Word2vecWord w) : (32 : UInt8) ∉ utf8 w := by
  refine not_mem_utf8_of (by decide) fun c hc he => h.1 ?_
  have : c = ' ' := Char.ext (UInt32.toNat_inj.mp he)
  exact this ▸ hc

theorem takeThrough_dropLast (delim : UInt8) (bs : Bytes) : delim ∉ (takeThrough delim bs).dropLast := by
  induction bs with
  | nil => simp [takeThrough]
  | cons b bs ih =>
    simp only [takeThrough]
    split
    · simp
    · rename_i hb
      cases ht : takeThrough delim bs with
      | nil => simp
      | cons x xs =>
        rw [ht] at ih
        simp only [List.dropLast_cons_cons, List.mem_cons, not_or]
        exact ⟨fun h => hb h.symm, ih⟩

/-- ASCII characters of a lossily decoded string come from the same byte. -/
theorem mem_utf8LossyF {fuel : Nat} {bs : Bytes} {c : Char} (h : c ∈ utf8LossyF fuel bs) (hc : c.toNat < 128) :
    UInt8.ofNat c.toNat ∈ bs := by
  induction fuel generalizing bs with
  | zero => cases bs <;> simp [utf8LossyF] at h
  | succ fuel ih =>
    cases bs with
    | nil => simp [utf8LossyF] at h
    | cons b bs =>
      simp only [utf8LossyF] at h
      cases hh : utf8Head (b :: bs) with
      | some x =>
        simp only [hh, List.mem_cons] at h
        rcases h with rfl | h
        · have := utf8Head_some hh
          rw [utf8EncodeChar_ascii hc] at this
          rw [this]; simp
        · exact List.drop_subset _ _ (ih h)
      | none =>
        simp only [hh, List.mem_cons] at h
        rcases h with rfl | h
        · exact absurd hc (by decide)
        · exact List.drop_subset _ _ (ih h)

theorem decodeToken_ascii {lossy : Bool} {bs : Bytes} {s : Str} (h : decodeToken lossy bs = .ok s) {c : Char}
    (hm : c ∈ s) (hc : c.toNat < 128) : UInt8.ofNat c.toNat ∈ bs := by
  cases lossy with
  | true =>
    simp only [decodeToken, if_true, Res.ok.injEq] at h
    subst h
    exact mem_utf8LossyF hm hc
  | false =>
    simp only [decodeToken] at h
    cases hd : utf8Decode bs with
    | none => simp [hd, Res.ofOption] at h
    | some t =>
      simp only [hd, Bool.false_eq_true, if_false, Res.ofOption_some, Res.ok.injEq] at h
      subst h
      rw [← utf8_of_utf8Decode hd]
      simp only [utf8, List.mem_flatMap]
      exact ⟨c, hm, by rw [utf8EncodeChar_ascii hc]; simp⟩

theorem replicateM_mem {α : Type} {p : Rd α} {d : Bytes} {n pos q : Nat} {as : List α}
    (h : replicateM n p d pos = .ok (as, q)) : ∀ a ∈ as, ∃ i j, p d i = .ok (a, j) := by
  induction n generalizing pos as q with
  | zero => cases h; simp
  | succ n ih =>
    simp only [replicateM, bind_apply] at h
    obtain ⟨⟨a, i⟩, ha, h⟩ := Res.bind_eq_ok.mp h
    obtain ⟨⟨as', j⟩, has, h⟩ := Res.bind_eq_ok.mp h
    cases h
    intro x hx
    rcases List.mem_cons.mp hx with rfl | hx
    · exact ⟨_, _, ha⟩
    · exact ih has x hx

/-! ## Round trip -/

namespace Embeddings

/-- The records behind the first line: every record but the first starts with the line feed that ends the
previous one. -/
def word2vecRecords (lead : Bytes) : List (Str × List F32) → Bytes
  | [] => []
  | r :: rs => lead ++ utf8 r.1 ++ [32] ++ encodeF32s r.2 ++ word2vecRecords [10] rs

theorem word2vecRecords_eq (lead : Bytes) (rs : List (Str × List F32)) :
    lead ++ rs.flatMap (fun r => utf8 r.1 ++ [32] ++ encodeF32s r.2 ++ [10]) =
      word2vecRecords lead rs ++ if rs = [] then lead else [10] := by
  induction rs generalizing lead with
  | nil => simp [word2vecRecords]
  | cons r rs ih =>
    simp only [List.flatMap_cons, word2vecRecords]
    have := ih [10]
    simp only [List.append_assoc] at this ⊢
    rw [this]
    cases rs <;> simp

variable {F : Type} [FloatBits F]

theorem readWord2vecEntry_readsAt {w : Str} (hw : Word2vecWord w) (xs : List F32) (lossy : Bool) (lead : Bytes)
    (hl : lead = [] ∨ lead = [10]) (off : Nat) :
    ReadsAt (readWord2vecEntry (F := F) xs.length lossy) off (lead ++ utf8 w ++ [32] ++ encodeF32s xs)
      (w, xs.map FloatBits.ofBits) := by
  obtain ⟨s, hs, hs32, htrim⟩ : ∃ s, lead ++ utf8 w = utf8 s ∧ (32 : UInt8) ∉ utf8 s ∧ trimBy isWhitespace s = w := by
    rcases hl with rfl | rfl
    · exact ⟨w, rfl, hw.bytes, trimBy_clean hw.2⟩
    · refine ⟨'\n' :: w, by rw [utf8_cons]; rfl, ?_, ?_⟩
      · rw [utf8_cons]
        have h0 : (32 : UInt8) ∉ String.utf8EncodeChar '\n' := by decide
        simp only [List.mem_append, not_or]
        exact ⟨h0, hw.bytes⟩
      · have h1 : ('\n' :: w).dropWhile isWhitespace = w.dropWhile isWhitespace := by
          have : isWhitespace '\n' = true := by decide
          simp [List.dropWhile, this]
        have := trimBy_clean hw.2
        unfold trimBy at *
        rw [h1, this]
  unfold readWord2vecEntry
  rw [hs, List.append_assoc (utf8 s), ← List.append_assoc]
  refine ReadsAt.bind (readToken_readsAt lossy hs32 off) ?_
  have := ReadsAt.map (fun xs : List F32 => (trimBy isWhitespace s, xs.map (FloatBits.ofBits (F := F))))
    (ReadsAt.readF32s (off + (utf8 s ++ [32]).length) xs)
  rw [htrim] at this
  simpa [htrim] using this

theorem word2vecRecords_readsAt (rs : List (Str × List F32)) (n : Nat) (lossy : Bool)
    (hw : ∀ r ∈ rs, Word2vecWord r.1) (hn : ∀ r ∈ rs, r.2.length = n) (lead : Bytes)
    (hl : lead = [] ∨ lead = [10]) (off : Nat) :
    ReadsAt (replicateM rs.length (readWord2vecEntry (F := F) n lossy)) off (word2vecRecords lead rs)
      (rs.map fun r => (r.1, r.2.map FloatBits.ofBits)) := by
  induction rs generalizing lead off with
  | nil => exact ReadsAt.pure _ _
  | cons r rs ih =>
    simp only [List.length_cons, replicateM, word2vecRecords, List.map_cons]
    refine ReadsAt.bind (b₁ := lead ++ utf8 r.1 ++ [32] ++ encodeF32s r.2) (a := (r.1, r.2.map FloatBits.ofBits)) ?_ ?_
    · have := readWord2vecEntry_readsAt (F := F) (hw r (by simp)) r.2 lossy lead hl off
      rwa [hn r (by simp)] at this
    · exact ReadsAt.map (_ :: ·) (ih (fun x hx => hw x (by simp [hx])) (fun x hx => hn x (by simp [hx])) [10] (.inr rfl) _)

end Embeddings

open Embeddings in
theorem writeWord2vec_bytes {T V S F : Type} [Vocab V] [Storage S F] [Scalar F] [FloatBits F]
    {e : Embeddings T V S F} {rs : List (Str × List F × F)} (h : e.iterWithNorms = .ok rs) (un : Bool) :
    (e.writeWord2vec un).Good ∧ (e.writeWord2vec un).bytes =
      (utf8 (printNat (Vocab.wordsLen e.vocab)) ++ [32]) ++ ((utf8 (printNat e.dims) ++ [10]) ++
        (rs.map (fun r => ((outRow un r).1, (outRow un r).2.map FloatBits.toBits))).flatMap
          fun r => utf8 r.1 ++ [32] ++ encodeF32s r.2 ++ [10]) := by
  have hrow : ∀ (w : Str) (v : List F),
      (W.emit (utf8 w ++ [32]) ++ W.each (fun x => W.f32 (FloatBits.toBits x)) v ++ W.emit [10]).Good ∧
      (W.emit (utf8 w ++ [32]) ++ W.each (fun x => W.f32 (FloatBits.toBits x)) v ++ W.emit [10]).bytes =
        utf8 w ++ [32] ++ encodeF32s (v.map FloatBits.toBits) ++ [10] := by
    intro w v
    have hg : (W.each (fun x => W.f32 (FloatBits.toBits x)) v).Good := W.good_each fun _ _ => rfl
    refine ⟨W.good_seq (W.good_seq (W.good_emit _) hg) (W.good_emit _), ?_⟩
    rw [W.bytes_seq (W.good_seq (W.good_emit _) hg), W.bytes_seq (W.good_emit _), W.bytes_each fun _ _ => W.good_f32 _]
    simp [encodeF32s, List.flatMap_map]
  unfold Embeddings.writeWord2vec
  rw [eachRow_eq h]
  refine ⟨W.good_seq (show e.shapeLine.Good from rfl) (W.good_each fun _ _ => (hrow _ _).1), ?_⟩
  rw [W.bytes_seq (show e.shapeLine.Good from rfl), W.bytes_each fun _ _ => (hrow _ _).1]
  simp only [Embeddings.shapeLine, W.bytes_emit, List.flatMap_map, (hrow _ _).2]
  simp

/-- The data written by `writeWord2vec`, up to the line feed after the last vector, is read at any position. -/
theorem writeWord2vec_readsAt {T T' V S F : Type} [Vocab V] [Storage S F] [Scalar F] [FloatBits F]
    (hbits : ∀ x : F, FloatBits.ofBits (FloatBits.toBits x) = x)
    (e : Embeddings T V S F) (rs : List (Str × List F × F)) (h : e.iterWithNorms = .ok rs)
    (hlen : Vocab.wordsLen e.vocab = rs.length) (hnd : (rs.map (·.1)).Nodup)
    (hdims : ∀ r ∈ rs, r.2.1.length = e.dims) (hwords : ∀ r ∈ rs, Word2vecWord r.1)
    (hmem : 4 * (rs.length * e.dims) ≤ isizeMax) (hmem' : 24 * rs.length ≤ isizeMax) (hd : e.dims ≤ isizeMax)
    (un lossy : Bool) (off : Nat) :
    ∃ bs : Bytes, (e.writeWord2vec un).bytes = bs ++ (if rs = [] then [] else [10]) ∧
      ReadsAt (Embeddings.readWord2vecRaw (T := T') (F := F) lossy) off bs
        ⟨none, ⟨⟨e.dims, rs.map fun r => if un then r.2.1.map (Scalar.mul · r.2.2) else r.2.1⟩⟩,
          ⟨indexMap (rs.map (·.1)), rs.map (·.1)⟩, none⟩ := by
  obtain ⟨-, hb⟩ := writeWord2vec_bytes h un
  have hv : SimpleVocab.new (rs.map (·.1)) = .ok ⟨indexMap (rs.map (·.1)), rs.map (·.1)⟩ :=
    SimpleVocab.new_eq_ok.mpr ⟨hnd, rfl⟩
  have hil : (indexMap (rs.map (·.1))).len = rs.length := by
    have := (indexMap_len_iff (rs.map (·.1))).mpr hnd
    simpa using this
  have hu : isizeMax ≤ usizeMax := by decide
  have hread : ReadsAt (Embeddings.readWord2vecRaw (T := T') (F := F) lossy) off
      ((utf8 (printNat (Vocab.wordsLen e.vocab)) ++ [32]) ++ ((utf8 (printNat e.dims) ++ [10]) ++
        Embeddings.word2vecRecords []
          (rs.map fun r => ((Embeddings.outRow un r).1, (Embeddings.outRow un r).2.map FloatBits.toBits))))
      ⟨none, ⟨⟨e.dims, rs.map fun r => if un then r.2.1.map (Scalar.mul · r.2.2) else r.2.1⟩⟩,
        ⟨indexMap (rs.map (·.1)), rs.map (·.1)⟩, none⟩ := by
    unfold Embeddings.readWord2vecRaw
    refine ReadsAt.bind (readNumber_readsAt (by omega) (by decide) _) ?_
    refine ReadsAt.bind (readNumber_readsAt (by omega) (by decide) _) ?_
    have hprod : (([Vocab.wordsLen e.vocab, e.dims].filter (· ≠ 0)).prod) ≤ isizeMax := by
      rw [hlen]
      by_cases h1 : rs.length = 0 <;> by_cases h2 : e.dims = 0
      · simp [h1, h2]; decide
      · simp [h1, h2]; omega
      · simp [h1, h2]; omega
      · have : rs.length * e.dims ≤ isizeMax := by omega
        simpa [h1, h2] using this
    refine ReadsAt.bind0 (allocArray_readsAt hprod (by rw [hlen]; simpa using hmem)) ?_
    refine ReadsAt.bind0 (ReadsAt.alloc (by rw [hlen]; exact hmem')) ?_
    have hrec := Embeddings.word2vecRecords_readsAt (F := F)
      (rs.map fun r => ((Embeddings.outRow un r).1, (Embeddings.outRow un r).2.map FloatBits.toBits)) e.dims lossy
      (by
        intro r hr
        obtain ⟨x, hx, rfl⟩ := List.mem_map.mp hr
        exact hwords x hx)
      (by
        intro r hr
        obtain ⟨x, hx, rfl⟩ := List.mem_map.mp hr
        have := hdims x hx
        simp only [Embeddings.outRow, List.length_map]
        split
        · simp [Embeddings.intoUnnormalized, scale, this]
        · exact this)
      [] (.inl rfl) (off + (utf8 (printNat (Vocab.wordsLen e.vocab)) ++ [32]).length +
        (utf8 (printNat e.dims) ++ [10]).length)
    rw [List.length_map, ← hlen] at hrec
    have := ReadsAt.bind hrec (f := fun entries => do
        let vocab ← lift (SimpleVocab.new (entries.map (·.1)))
        lift (Embeddings.newWithMaybeNorms (T := T') none vocab (NdArray.mk ⟨e.dims, entries.map (·.2)⟩) none))
      (b₂ := []) (b := ⟨none, ⟨⟨e.dims, rs.map fun r => if un then r.2.1.map (Scalar.mul · r.2.2) else r.2.1⟩⟩,
        ⟨indexMap (rs.map (·.1)), rs.map (·.1)⟩, none⟩) (by
        have e1 : ((rs.map fun r => ((Embeddings.outRow un r).1, (Embeddings.outRow un r).2.map FloatBits.toBits)).map
            fun r => (r.1, r.2.map (FloatBits.ofBits (F := F)))).map (·.1) = rs.map (·.1) := by
          simp [Embeddings.outRow, Function.comp_def]
        have e2 : ((rs.map fun r => ((Embeddings.outRow un r).1, (Embeddings.outRow un r).2.map FloatBits.toBits)).map
            fun r => (r.1, r.2.map (FloatBits.ofBits (F := F)))).map (·.2) =
            rs.map fun r => if un then r.2.1.map (Scalar.mul · r.2.2) else r.2.1 := by
          simp only [List.map_map]
          refine List.map_congr_left fun r _ => ?_
          simp only [Function.comp_def, Embeddings.outRow, List.map_map, hbits, List.map_id']
          rfl
        rw [e1, e2, hv]
        refine ReadsAt.bind0 (ReadsAt.lift_ok _ _) ?_
        have : Embeddings.newWithMaybeNorms (T := T') (F := F) none
            (SimpleVocab.mk (indexMap (rs.map (·.1))) (rs.map (·.1)))
            (NdArray.mk ⟨e.dims, rs.map fun r => if un then r.2.1.map (Scalar.mul · r.2.2) else r.2.1⟩) none =
            .ok ⟨none, ⟨⟨e.dims, rs.map fun r => if un then r.2.1.map (Scalar.mul · r.2.2) else r.2.1⟩⟩,
              ⟨indexMap (rs.map (·.1)), rs.map (·.1)⟩, none⟩ := by
          simp [Embeddings.newWithMaybeNorms, Vocab.vocabLen, Storage.shape, Mat.dim, Mat.nrows, hil, Res.assert]
        rw [this]
        exact ReadsAt.lift_ok _ _)
    simpa using this
  refine ⟨_, ?_, hread⟩
  rw [hb]
  have hrecs := Embeddings.word2vecRecords_eq []
    (rs.map fun r => ((Embeddings.outRow un r).1, (Embeddings.outRow un r).2.map FloatBits.toBits))
  rw [List.nil_append] at hrecs
  rw [hrecs]
  simp only [List.map_eq_nil_iff, List.append_assoc]

/-- **C48.** Whatever was iterated over (words, stored vectors and norms) is what is read back: the same
words in the same order, and the vectors (scaled with the norms if `unnormalize` was chosen) without any
change, by the strict and by the lossy reader. The words must not contain spaces nor begin or end with
white space, and the matrix must be small enough to be allocated. -/
theorem c48_roundtrip {T T' V S F : Type} [Vocab V] [Storage S F] [Scalar F] [FloatBits F]
    (hbits : ∀ x : F, FloatBits.ofBits (FloatBits.toBits x) = x)
    (e : Embeddings T V S F) (rs : List (Str × List F × F)) (h : e.iterWithNorms = .ok rs)
    (hlen : Vocab.wordsLen e.vocab = rs.length) (hnd : (rs.map (·.1)).Nodup)
    (hdims : ∀ r ∈ rs, r.2.1.length = e.dims) (hwords : ∀ r ∈ rs, Word2vecWord r.1)
    (hmem : 4 * (rs.length * e.dims) ≤ isizeMax) (hmem' : 24 * rs.length ≤ isizeMax) (hd : e.dims ≤ isizeMax)
    (un lossy : Bool) :
    (e.writeWord2vec un).Good ∧
    ∃ (e' : Embeddings T' SimpleVocab (NdArray F) F) (pos : Nat),
      Embeddings.readWord2vecRaw lossy (e.writeWord2vec un).bytes 0 = .ok (e', pos) ∧
      SimpleVocab.new (rs.map (·.1)) = .ok e'.vocab ∧
      e'.storage.inner = ⟨e.dims, rs.map fun r => if un then r.2.1.map (Scalar.mul · r.2.2) else r.2.1⟩ ∧
      e'.norms = none ∧ e'.metadata = none := by
  obtain ⟨hg, hb⟩ := writeWord2vec_bytes h un
  refine ⟨hg, ?_⟩
  have hv : SimpleVocab.new (rs.map (·.1)) = .ok ⟨indexMap (rs.map (·.1)), rs.map (·.1)⟩ :=
    SimpleVocab.new_eq_ok.mpr ⟨hnd, rfl⟩
  obtain ⟨bs, hbs, hr⟩ := writeWord2vec_readsAt (T' := T') hbits e rs h hlen hnd hdims hwords hmem hmem' hd un lossy 0
  refine ⟨⟨none, ⟨⟨e.dims, _⟩⟩, _, none⟩, 0 + bs.length, ?_, hv, rfl, rfl, rfl⟩
  rw [hbs]
  exact hr [] _ rfl

/-- **C48** (the condition on the words is necessary): every word that the reader returns, whatever the data,
has no space inside and no white space at its ends. -/
theorem c48_words {T F : Type} [Scalar F] [FloatBits F] (lossy : Bool) (d : Bytes) (pos p : Nat)
    (e : Embeddings T SimpleVocab (NdArray F) F) (h : Embeddings.readWord2vecRaw lossy d pos = .ok (e, p)) :
    ∀ w ∈ Vocab.words e.vocab, Word2vecWord w := by
  unfold Embeddings.readWord2vecRaw at h
  simp only [bind_apply] at h
  obtain ⟨⟨n, p1⟩, _, h⟩ := Res.bind_eq_ok.mp h
  obtain ⟨⟨k, p2⟩, _, h⟩ := Res.bind_eq_ok.mp h
  obtain ⟨⟨_, p3⟩, _, h⟩ := Res.bind_eq_ok.mp h
  obtain ⟨⟨_, p4⟩, _, h⟩ := Res.bind_eq_ok.mp h
  obtain ⟨⟨entries, p5⟩, hent, h⟩ := Res.bind_eq_ok.mp h
  obtain ⟨⟨vocab, p6⟩, hv, h⟩ := Res.bind_eq_ok.mp h
  obtain ⟨v', hv', hvp⟩ := Res.map_eq_ok.mp hv
  obtain ⟨e', he', hep⟩ := Res.map_eq_ok.mp h
  cases hep; cases hvp
  unfold Embeddings.newWithMaybeNorms at he'
  obtain ⟨_, _, he'⟩ := Res.bind_eq_ok.mp he'
  obtain ⟨_, _, he'⟩ := Res.bind_eq_ok.mp he'
  cases he'
  obtain ⟨-, rfl⟩ := SimpleVocab.new_eq_ok.mp hv'
  intro w hw
  obtain ⟨r, hr, rfl⟩ := List.mem_map.mp (show w ∈ entries.map (·.1) from hw)
  obtain ⟨i, j, hij⟩ := replicateM_mem hent r hr
  unfold Embeddings.readWord2vecEntry readToken readUntil at hij
  simp only [bind_apply] at hij
  obtain ⟨⟨s, q⟩, hs, hij⟩ := Res.bind_eq_ok.mp hij
  obtain ⟨⟨xs, q'⟩, _, hij⟩ := Res.bind_eq_ok.mp hij
  obtain ⟨s', hs', hsp⟩ := Res.map_eq_ok.mp hs
  cases hsp; cases hij
  refine ⟨fun hm => ?_, clean_trimBy _ _⟩
  have hb := decodeToken_ascii hs' (mem_trimBy hm) (by decide)
  exact takeThrough_dropLast 32 _ hb

/-- The public readers are the raw reader followed by normalisation. -/
theorem c48_normalized {T F : Type} [Scalar F] [FloatBits F] (lossy : Bool) (d : Bytes) (pos p : Nat)
    (e : Embeddings T SimpleVocab (NdArray F) F) (h : Embeddings.readWord2vecRaw lossy d pos = .ok (e, p)) :
    (Embeddings.readWord2vec lossy d pos : Res (Embeddings T SimpleVocab (NdArray F) F × Nat)) =
      .ok (⟨none, ⟨⟨e.storage.inner.cols, e.storage.inner.rows.map fun r => (l2Normalize r).1⟩⟩, e.vocab,
        some ⟨e.storage.inner.rows.map fun r => (l2Normalize r).2⟩⟩, p) := by
  have hlen : Vocab.vocabLen e.vocab = .ok (shape e.storage).1 := by
    unfold Embeddings.readWord2vecRaw at h
    simp only [bind_apply] at h
    obtain ⟨⟨n, p1⟩, _, h⟩ := Res.bind_eq_ok.mp h
    obtain ⟨⟨k, p2⟩, _, h⟩ := Res.bind_eq_ok.mp h
    obtain ⟨⟨_, p3⟩, _, h⟩ := Res.bind_eq_ok.mp h
    obtain ⟨⟨_, p4⟩, _, h⟩ := Res.bind_eq_ok.mp h
    obtain ⟨⟨entries, p5⟩, hent, h⟩ := Res.bind_eq_ok.mp h
    obtain ⟨⟨vocab, p6⟩, hv, h⟩ := Res.bind_eq_ok.mp h
    obtain ⟨e', he', hep⟩ := Res.map_eq_ok.mp h
    cases hep
    obtain ⟨h1, rfl⟩ := Embeddings.newWithMaybeNorms_eq_ok.mp he'
    exact h1
  simp [Embeddings.readWord2vec, h, Embeddings.normalizeRead_eq hlen]

/-! ## Examples -/

section Examples
attribute [local instance] exampleScalar

/-- Two words, three components, norms. -/
def exampleW2v : Embeddings Str SimpleVocab (NdArray F32) F32 :=
  ⟨none, ⟨⟨3, [[1, 2, 3], [4, 5, 0x20202020]]⟩⟩, ⟨indexMap [['a'], ['b', 'é']], [['a'], ['b', 'é']]⟩,
    some ⟨[7, 8]⟩⟩

example : exampleW2v.iterWithNorms = .ok [(['a'], [1, 2, 3], 7), (['b', 'é'], [4, 5, 0x20202020], 8)] := by
  decide +kernel

example (un lossy : Bool) :
    ∃ (e' : Embeddings Str SimpleVocab (NdArray F32) F32) (pos : Nat),
      Embeddings.readWord2vecRaw lossy (exampleW2v.writeWord2vec un).bytes 0 = .ok (e', pos) ∧
      SimpleVocab.new [['a'], ['b', 'é']] = .ok e'.vocab := by
  obtain ⟨-, e', pos, h1, h2, -⟩ := c48_roundtrip (T' := Str) (fun _ => rfl) exampleW2v
    [(['a'], [1, 2, 3], 7), (['b', 'é'], [4, 5, 0x20202020], 8)] (by decide +kernel) (by decide +kernel)
    (by decide +kernel) (by decide +kernel)
    (by
      intro r hr
      simp only [List.mem_cons, List.not_mem_nil, or_false] at hr
      rcases hr with rfl | rfl <;>
        exact ⟨by decide, by rintro c ⟨⟩; decide, by rintro c ⟨⟩; decide⟩)
    (by decide +kernel) (by decide +kernel) (by decide +kernel) un lossy
  exact ⟨e', pos, h1, h2⟩

/-- `c48_words` applied to a file with one word. -/
example := c48_words (T := Str) (F := F32) false [49, 32, 49, 10, 97, 32, 5, 0, 0, 0, 10] 0 10
  ⟨none, ⟨⟨1, [[5]]⟩⟩, ⟨indexMap [['a']], [['a']]⟩, none⟩ (by decide +kernel)

/-- Why words with spaces are excluded: `a b` comes back as `a`, with another vector. -/
example :
    let e : Embeddings Str SimpleVocab (NdArray F32) F32 :=
      ⟨none, ⟨⟨1, [[0x41424344]]⟩⟩, ⟨indexMap [['a', ' ', 'b']], [['a', ' ', 'b']]⟩, none⟩
    ((Embeddings.readWord2vecRaw false (e.writeWord2vec false).bytes 0 :
      Res (Embeddings Str SimpleVocab (NdArray F32) F32 × Nat)).map fun r => (r.1.vocab.words, r.1.storage.inner.rows)) =
      .ok ([['a']], [[0x43442062]]) := by
  decide +kernel

end Examples

end FF
