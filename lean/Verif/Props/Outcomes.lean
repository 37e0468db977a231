import Verif.Lemmas.FastText
import Verif.Props.Accepted
import Verif.Props.Exact
import Verif.Props.TextExact
import Verif.Props.Floret

/-!
# Exact outcomes of readers and writers

* C50: when reading a text file with a first line succeeds and when it panics, for every shape that the first line
  may promise.
* C60: which error a floret text file is rejected with.
* C67: the error of a floret vocabulary with an impossible number of hashes.
* C71: writing a mapped storage.
-/

namespace FF

open Rd Layout Storage

/-! ## C50: text with a first line -/

section Text
variable {T F : Type} [FloatText F] [Scalar F]

omit [Scalar F] in
/-- **C50** (accepted files with a first line). `read_text_dims_raw` succeeds exactly if the first line has two
numbers, the promised table can be allocated, there are as many lines as promised, at least one, all lines have the
right form, the words are distinct, and the number of components is that of the promised table. -/
theorem c50_dims_accepts (lossy : Bool) (d : Bytes) (pos : Nat) (e : Embeddings T SimpleVocab (NdArray F) F) :
    Embeddings.readTextDimsRaw lossy d pos = .ok e ↔
      ∃ (n k p1 p2 : Nat) (lines : List Bytes) (rows : List (Str × List F)),
        readNumber 32 d pos = .ok (n, p1) ∧ readNumber 10 d p1 = .ok (k, p2) ∧
        24 * n ≤ isizeMax ∧ 4 * (n * k) ≤ isizeMax ∧
        IsLines (d.drop p2) lines ∧ LinesHave lossy lines rows ∧ rows.length = n ∧ n ≠ 0 ∧
        (rows.map (·.1)).Nodup ∧ (rows.map (·.2)).flatten.length = n * k ∧
        e = ⟨none, ⟨Mat.ofFlat n k (rows.map (·.2)).flatten⟩, ⟨indexMap (rows.map (·.1)), rows.map (·.1)⟩, none⟩ := by
  unfold Embeddings.readTextDimsRaw
  constructor
  · intro h
    obtain ⟨⟨n, p1⟩, h1, h⟩ := Res.bind_eq_ok.mp h
    obtain ⟨⟨k, p2⟩, h2, h⟩ := Res.bind_eq_ok.mp h
    dsimp only at h h2
    have hfit : ShapeFits (some (n, k)) := by
      unfold Embeddings.readEmbeds at h
      obtain ⟨_, ha, -⟩ := Res.bind_eq_ok.mp h
      simp only [Embeddings.allocTable] at ha
      obtain ⟨_, ha, hb⟩ := Res.bind_eq_ok.mp ha
      exact ⟨by simpa [Res.assert] using ha, by simpa [Res.assert] using hb⟩
    obtain ⟨rows, k', hr, hne, hnd, hlen, hs, he⟩ := (c50_accepts _ hfit lossy d p2 _ (textLines_spec _) e).mp h
    cases hs _ rfl
    exact ⟨_, _, p1, p2, _, rows, h1, h2, hfit.1, hfit.2, textLines_spec _, hr, rfl,
      fun h0 => hne (List.length_eq_zero_iff.mp h0), hnd, hlen, he⟩
  · rintro ⟨n, k, p1, p2, lines, rows, h1, h2, hf1, hf2, hl, hr, rfl, h0, hnd, hlen, he⟩
    rw [h1, Res.ok_bind]
    dsimp only
    rw [h2, Res.ok_bind]
    exact (c50_accepts _ (show ShapeFits (some (rows.length, k)) from ⟨hf1, hf2⟩) lossy d p2 lines hl e).mpr
      ⟨rows, k, hr, fun h => h0 (by simp [h]), hnd, hlen, fun s hs => by cases hs; rfl, he⟩

omit [Scalar F] in
/-- **C50** (panics on files with a first line). `read_text_dims_raw` panics exactly if the first line has two
numbers and they promise a table that cannot be allocated, or no words and there are none, or the table is as promised
but for a repeated word. -/
theorem c50_dims_panics (lossy : Bool) (d : Bytes) (pos : Nat) :
    (Embeddings.readTextDimsRaw lossy d pos : Res (Embeddings T SimpleVocab (NdArray F) F)) = .panic ↔
      ∃ (n k p1 p2 : Nat) (lines : List Bytes),
        readNumber 32 d pos = .ok (n, p1) ∧ readNumber 10 d p1 = .ok (k, p2) ∧ IsLines (d.drop p2) lines ∧
        (isizeMax < 24 * n ∨ isizeMax < 4 * (n * k) ∨ (n = 0 ∧ lines = []) ∨
          ∃ rows : List (Str × List F), LinesHave lossy lines rows ∧ rows.length = n ∧ n ≠ 0 ∧
            (rows.map (·.2)).flatten.length = n * k ∧ ¬ (rows.map (·.1)).Nodup) := by
  unfold Embeddings.readTextDimsRaw
  constructor
  · intro h
    obtain ⟨⟨n, p1⟩, h1, h⟩ := (Res.bind_eq_panic.mp h).resolve_left (readNumber_noPanic _ _ _)
    obtain ⟨⟨k, p2⟩, h2, h⟩ := (Res.bind_eq_panic.mp h).resolve_left (readNumber_noPanic _ _ _)
    dsimp only at h h2
    refine ⟨n, k, p1, p2, _, h1, h2, textLines_spec _, ?_⟩
    by_cases hf1 : 24 * n ≤ isizeMax
    · by_cases hf2 : 4 * (n * k) ≤ isizeMax
      · right; right
        rcases (c50_panics _ (show ShapeFits (some (n, k)) from ⟨hf1, hf2⟩) lossy d p2 _ (textLines_spec _)).mp h with
          ⟨h3, h4⟩ | ⟨rows, k', hr, hne, hlen, hs, hnd⟩
        · exact .inl ⟨h4 _ rfl, h3⟩
        · cases hs _ rfl
          exact .inr ⟨rows, hr, rfl, fun h0 => hne (List.length_eq_zero_iff.mp h0), hlen, hnd⟩
      · right; left; omega
    · left; omega
  · rintro ⟨n, k, p1, p2, lines, h1, h2, hl, h⟩
    rw [h1, Res.ok_bind]
    dsimp only
    rw [h2, Res.ok_bind]
    dsimp only
    by_cases hfit : ShapeFits (some (n, k))
    · refine (c50_panics _ hfit lossy d p2 lines hl).mpr ?_
      rcases h with h | h | ⟨h3, h4⟩ | ⟨rows, hr, rfl, h0, hlen, hnd⟩
      · exact absurd hfit.1 (by omega)
      · exact absurd hfit.2 (by omega)
      · exact .inl ⟨h4, fun s hs => by cases hs; exact h3⟩
      · exact .inr ⟨rows, k, hr, fun h => h0 (by simp [h]), hlen, fun s hs => by cases hs; rfl, hnd⟩
    · unfold Embeddings.readEmbeds
      rw [show Embeddings.allocTable (some (n, k)) = .panic from ?_]
      · rfl
      · simp only [Embeddings.allocTable]
        by_cases hf1 : 24 * n ≤ isizeMax
        · have hf2 : ¬ 4 * (n * k) ≤ isizeMax := fun hf2 => hfit ⟨hf1, hf2⟩
          simp [Res.assert, hf1, hf2]
        · simp [Res.assert, hf1]

end Text

/-! ## C60: errors of floret files -/

section Floret
variable {T F : Type} [FloatText F] [Scalar F]

/-- The error with which a line is rejected: input and output if it is not valid text, the format otherwise. -/
inductive FloretLineError (k : Nat) : Bytes → Err → Prop where
  | text (l : Bytes) : (∀ s, utf8 s ≠ l) → FloretLineError k l .io
  | row (s : Str) : (∀ row : List F, FloretLineHas (utf8 s) row → row.length ≠ k) → FloretLineError k (utf8 s) .format

omit [Scalar F] in
theorem readFloretLine_err {k : Nat} (hk : 0 < k) {l : Bytes} {x : Err} (h : FloretLineError (F := F) k l x) :
    Embeddings.readFloretLine (F := F) k l = .err x := by
  cases h with
  | text _ h =>
    unfold Embeddings.readFloretLine
    cases hd : utf8Decode l with
    | none => rfl
    | some s => exact absurd (utf8_of_utf8Decode hd) (h s)
  | row s h =>
    cases hr : Embeddings.readFloretLine (F := F) k (utf8 s) with
    | ok row =>
      obtain ⟨h1, h2⟩ := (readFloretLine_iff hk).mp hr
      exact absurd h2 (h row h1)
    | panic => exact absurd hr (readFloretLine_no_panic k _)
    | err x =>
      unfold Embeddings.readFloretLine at hr
      rw [utf8Decode_utf8, Res.ofOption_some, Res.ok_bind] at hr
      rcases mapM_parse_outcome (F := F) ((parts s).drop 1) with ⟨xs, hx⟩ | hx
      · rw [hx, Res.ok_bind] at hr
        split at hr
        · exact hr.symm
        · cases hr
      · rw [hx] at hr; exact hr.symm

theorem Res.mapM_first_err {α β : Type} {f : α → Res β} {x : Err} {a : α} {init rest : List α}
    (h : ∀ b ∈ init, ∃ c, f b = .ok c) (ha : f a = .err x) : (init ++ a :: rest).mapM f = .err x := by
  induction init with
  | nil => simp [List.mapM_cons, ha]
  | cons b init ih =>
    obtain ⟨c, hc⟩ := h b (by simp)
    rw [List.cons_append, List.mapM_cons, hc, Res.ok_bind, ih fun b hb => h b (by simp [hb])]
    rfl

omit [Scalar F] in
/-- **C60** (which error). After an acceptable first line, the first line that is not valid text or does not have the
promised number of components decides: text that is not valid is an I/O error, everything else an error in the format.
If all lines are good but there are too few or too many, the error is that of a wrong shape. -/
theorem c60_errors (d : Bytes) (pos : Nat) (h : FloretHead) (p : Nat) (hh : readFloretHead d pos = .ok (h, p))
    (c1 : h.nBuckets ≠ 0) (c2 : h.embedLen ≠ 0) (c3 : h.minN ≤ h.maxN) (c4 : 1 ≤ h.nHashes) (c5 : h.nHashes ≤ 4)
    (c6 : 4 * (h.nBuckets * h.embedLen) ≤ isizeMax) (good : List Bytes)
    (hgood : ∀ l ∈ good, ∃ row : List F, FloretLineHas l row ∧ row.length = h.embedLen) :
    (∀ (bad : Bytes) (rest : List Bytes) (x : Err), IsLines (d.drop p) (good ++ bad :: rest) →
      FloretLineError (F := F) h.embedLen bad x →
      (Embeddings.readFloret d pos : Res (Embeddings T FloretSubwordVocab (NdArray F) F)) = .err x) ∧
    (IsLines (d.drop p) good → good.length ≠ h.nBuckets →
      (Embeddings.readFloret d pos : Res (Embeddings T FloretSubwordVocab (NdArray F) F)) = .err .shape) := by
  have hk : 0 < h.embedLen := by omega
  have hg : ∀ l ∈ good, ∃ row, Embeddings.readFloretLine (F := F) h.embedLen l = .ok row := by
    intro l hl
    obtain ⟨row, h1, h2⟩ := hgood l hl
    exact ⟨row, (readFloretLine_iff hk).mpr ⟨h1, h2⟩⟩
  have key : (Embeddings.readFloret d pos : Res (Embeddings T FloretSubwordVocab (NdArray F) F)) = (do
      let rows ← (textLines (d.drop p)).mapM (Embeddings.readFloretLine (F := F) h.embedLen)
      let m ← Embeddings.fromShapeVec (h.nBuckets, h.embedLen) rows.flatten
      let indexer ← FloretIndexer.new h.nBuckets h.nHashes (UInt32.ofNat h.seed)
      let vocab ← SubwordVocab.newWithBoundaries [] h.minN h.maxN indexer h.bow h.eow
      Embeddings.newWithMaybeNorms none vocab (NdArray.mk m) none) := by
    unfold Embeddings.readFloret
    rw [hh, Res.ok_bind]
    dsimp only
    rw [checkFloretHead_iff.mpr ⟨c1, c2, c3, c4, c5⟩, Res.ok_bind,
      show Res.assert (4 * (h.nBuckets * h.embedLen) ≤ isizeMax) = .ok () by simp [Res.assert, c6], Res.ok_bind,
      readFloretLines_text]
  refine ⟨fun bad rest x hl hb => ?_, fun hl hn => ?_⟩
  · rw [key, ← hl.eq, Res.mapM_first_err hg (readFloretLine_err hk hb)]
    rfl
  · rw [key, ← hl.eq]
    obtain ⟨rows, hrows⟩ : ∃ rows, good.mapM (Embeddings.readFloretLine (F := F) h.embedLen) = .ok rows := by
      clear hl hn hgood key
      induction good with
      | nil => exact ⟨[], rfl⟩
      | cons l good ih =>
        obtain ⟨r, hr⟩ := hg l (by simp)
        obtain ⟨rs, hrs⟩ := ih fun l hl => hg l (by simp [hl])
        exact ⟨r :: rs, by rw [List.mapM_cons, hr, Res.ok_bind, hrs]; rfl⟩
    have hmap := Res.mapM_eq_ok_iff.mp hrows
    have hlen : rows.length = good.length := by simpa using (congrArg List.length hmap).symm
    have hrk : ∀ r ∈ rows, r.length = h.embedLen := by
      intro r hr
      have : Res.ok r ∈ good.map (Embeddings.readFloretLine (F := F) h.embedLen) := by
        rw [hmap]; exact List.mem_map_of_mem hr
      obtain ⟨l, -, hl⟩ := List.mem_map.mp this
      exact ((readFloretLine_iff hk).mp hl).2
    rw [hrows, Res.ok_bind]
    unfold Embeddings.fromShapeVec
    rw [if_neg]
    · rfl
    · rw [length_flatten_of hrk, hlen]
      exact fun h' => hn (Nat.eq_of_mul_eq_mul_right hk h')

end Floret

/-! ## C67: number of hashes -/

/-- **C67** (number of hashes). A floret vocabulary whose number of hashes is not between one and four is rejected with
an I/O error, whatever follows. -/
theorem c67_floret_hashes (len minN maxN buckets hashes : Nat) (h1 : len < 2 ^ 64) (h2 : minN < 2 ^ 32)
    (h3 : maxN < 2 ^ 32) (h4 : buckets < 2 ^ 64) (h5 : hashes < 2 ^ 32) (hbad : hashes = 0 ∨ 4 < hashes)
    (before rest : Bytes) :
    (readChunk : Rd FloretSubwordVocab) (before ++ (le32 9 ++ (le64 len ++ (le32 minN ++ (le32 maxN ++
      (le64 buckets ++ (le32 hashes ++ rest))))))) before.length = .err .io := by
  have : FailsAt readFloret before.length (leBytes 4 ChunkId.floretSubwordVocab.code ++ (leBytes 8 len ++ (leBytes 4 minN ++
      (leBytes 4 maxN ++ (leBytes 8 buckets ++ (leBytes 4 hashes ++ [])))))) .io := by
    unfold readFloret
    refine .right (ensureChunkType_readsAt (by decide)) (.right (ReadsAt.readU64 h1) (.right (ReadsAt.readU32 h2)
      (.right (ReadsAt.readU32 h3) (.right (ReadsAt.readU64 h4) (.right (ReadsAt.readU32 h5) ?_)))))
    rw [if_pos (by omega)]
    exact .fail _ _ _
  have := this before rest rfl
  simp only [leBytes4_eq, leBytes8_eq, List.append_assoc, List.append_nil] at this
  exact this

/-! ## C71: writing a mapped array -/

theorem Res.mapM_eq_panic {α β : Type} {f : α → Res β} {l : List α} (h : ∀ b ∈ l, ∀ x, f b ≠ .err x) {a : α} (ha : a ∈ l)
    (hp : f a = .panic) : l.mapM f = .panic := by
  induction l with
  | nil => cases ha
  | cons b l ih =>
    rw [List.mapM_cons]
    cases hb : f b with
    | panic => rfl
    | err x => exact absurd hb (h b (by simp) x)
    | ok c =>
      rw [Res.ok_bind]
      rcases List.mem_cons.mp ha with rfl | ha
      · rw [hp] at hb; cases hb
      · rw [ih (fun b hb => h b (by simp [hb])) ha]; rfl

/-- **C71** (writing). Writing a mapped dense array crashes exactly if the array is not empty and ends beyond the last
page of the file; otherwise the same is written as for the array of the floats in the file, with zeros in place of what
is missing. -/
theorem c71_write (d : Bytes) (pos p rows cols : Nat) (m : MmapArray) (h : mmapNdArray d pos = .ok (m, p))
    (hs : shape m = (rows, cols)) (off : Nat) :
    ∃ start, start % 4 = 0 ∧ p = start + 4 * (rows * cols) ∧
      ((writeChunk m off).status = .panic ↔ rows * cols ≠ 0 ∧ pageEnd d.length < p) ∧
      ((rows * cols = 0 ∨ p ≤ pageEnd d.length) → writeChunk m off = writeChunk (NdArray.mk (F := F32)
        ⟨cols, (List.range rows).map fun i => (List.range cols).map fun j => mappedF32 d (start + 4 * (i * cols + j))⟩) off) := by
  obtain ⟨start, h0, hp, hrow⟩ := c71_array d pos p rows cols m h hs
  refine ⟨start, h0, hp, ?_⟩
  have hm : m.nRows = rows ∧ m.cols = cols := by cases hs; exact ⟨rfl, rfl⟩
  have hok : (rows * cols = 0 ∨ p ≤ pageEnd d.length) → writeChunk m off = writeChunk (NdArray.mk (F := F32)
        ⟨cols, (List.range rows).map fun i => (List.range cols).map fun j => mappedF32 d (start + 4 * (i * cols + j))⟩) off := by
    intro hfit
    have hview : (List.range m.nRows).mapM m.row = .ok ((List.range rows).map fun i => (List.range cols).map fun j =>
        mappedF32 d (start + 4 * (i * cols + j))) := by
      rw [hm.1, Res.mapM_eq_ok_iff, List.map_map]
      refine List.map_congr_left fun i hi => ?_
      have hi : i < rows := List.mem_range.mp hi
      have hle : (i + 1) * cols ≤ rows * cols := Nat.mul_le_mul_right cols hi
      refine (hrow i).2 hi ?_
      rcases hfit with hz | hfit
      · left
        rcases Nat.mul_eq_zero.mp hz with hz | hz
        · omega
        · exact hz
      · right; omega
    show W.ofView (((List.range m.nRows).mapM m.row).map (Mat.mk m.cols)) _ = writeNdArray _ off
    rw [hview, hm.2]
    rfl
  refine ⟨?_, hok⟩
  by_cases hc : rows * cols ≠ 0 ∧ pageEnd d.length < p
  · simp only [hc, and_self, iff_true, ne_eq, not_false_eq_true]
    have h1 : rows ≠ 0 := fun h => hc.1 (by simp [h])
    have h2 : cols ≠ 0 := fun h => hc.1 (by simp [h])
    have hpan : (List.range m.nRows).mapM m.row = .panic := by
      refine Res.mapM_eq_panic (fun i _ => ?_) (a := rows - 1) (List.mem_range.mpr (by omega)) ?_
      · unfold MmapArray.row
        split
        · refine fun x => ?_
          unfold Mmap.slice
          split
          · simp
          · split <;> simp
        · simp
      · refine (hrow (rows - 1)).1 (.inr ⟨h2, ?_⟩)
        rw [show rows - 1 + 1 = rows by omega]
        omega
    show (W.ofView (((List.range m.nRows).mapM m.row).map (Mat.mk m.cols)) fun m => writeNdArray m off).status = _
    rw [hpan]
    rfl
  · simp only [hc, iff_false]
    rw [hok (by rcases Nat.eq_zero_or_pos (rows * cols) with h | h
                · exact .inl h
                · exact .inr (by omega))]
    intro hpan
    have := writeNdArray_good ⟨cols, (List.range rows).map fun i => (List.range cols).map fun j =>
      mappedF32 d (start + 4 * (i * cols + j))⟩ off
    rw [W.Good] at this
    exact absurd (this.symm.trans hpan) (by simp)

/-! ## Examples -/

section Examples
attribute [local instance] exampleScalar exampleFloatText

/-- Outcome of reading a text file with a first line. -/
def exampleDims (s : String) : Res (List Str) :=
  (Embeddings.readTextDimsRaw false (ascii s) 0 : Res (Embeddings Str SimpleVocab (NdArray F32) F32)).map
    fun e => e.vocab.words

/-- Both sides of `c50_dims_accepts` and `c50_dims_panics`: an accepted file; more words than can be allocated; more
components than can be allocated; no words; a repeated word; one word too few. -/
example : exampleDims "2 2\na 1 2\nb 3 4\n" = .ok [['a'], ['b']] ∧
    exampleDims "4611686018427387904 0\na\n" = .panic ∧
    exampleDims "2 4611686018427387904\na 1\nb 2\n" = .panic ∧
    exampleDims "0 2\n" = .panic ∧ exampleDims "2 1\na 1\na 2\n" = .panic ∧
    exampleDims "2 1\na 1\n" = .err .format := by
  refine ⟨?_, ?_, ?_, ?_, ?_, ?_⟩ <;> decide +kernel

/-- The hypotheses of `c60_errors` can be met: one good line, then a line that is not valid text. -/
example : (Embeddings.readFloret (ascii "2 1 3 6 3 7 < >\n0 5\n" ++ [49, 32, 255]) 0 :
    Res (Embeddings Str FloretSubwordVocab (NdArray F32) F32)) = .err .io := by
  refine (c60_errors (T := Str) (F := F32) (ascii "2 1 3 6 3 7 < >\n0 5\n" ++ [49, 32, 255]) 0
    ⟨2, 1, 3, 6, 3, 7, ['<'], ['>']⟩ 16 (by decide +kernel) (by decide) (by decide) (by decide) (by decide) (by decide)
    (by decide) [ascii "0 5"] ?_).1 [49, 32, 255] [] .io ?_ (.text _ fun s hs => ?_)
  · intro l hl
    obtain rfl := List.mem_singleton.mp hl
    exact ⟨[5], (readFloretLine_iff (by decide)).mp (by decide +kernel)⟩
  · have := textLines_spec ((ascii "2 1 3 6 3 7 < >\n0 5\n" ++ [49, 32, 255]).drop 16)
    have e : textLines ((ascii "2 1 3 6 3 7 < >\n0 5\n" ++ [49, 32, 255]).drop 16) =
      [ascii "0 5"] ++ [49, 32, 255] :: [] := by decide +kernel
    exact e ▸ this
  · have := utf8Decode_utf8 s
    rw [hs, show utf8Decode [49, 32, 255] = none by decide +kernel] at this
    cases this

/-- The numbers of `c67_floret_hashes` can be met. -/
example : (readChunk : Rd FloretSubwordVocab) (le32 9 ++ (le64 40 ++ (le32 3 ++ (le32 6 ++ (le64 100 ++
    (le32 5 ++ [1, 2])))))) 0 = .err .io :=
  c67_floret_hashes 40 3 6 100 5 (by decide) (by decide) (by decide) (by decide) (by decide) (by decide) [] [1, 2]

/-- The hypotheses of `c71_write` can be met: a file without the second row, which is written with zeros. -/
example : ∃ m : MmapArray, mmapNdArray ((writeChunk (NdArray.mk (⟨2, [[1, 2], [3, 4]]⟩ : Mat F32)) 0).bytes.take 40) 0 =
    .ok (m, 48) ∧ shape m = (2, 2) ∧
    writeChunk m 0 = writeChunk (NdArray.mk (⟨2, [[1, 2], [0, 0]]⟩ : Mat F32)) 0 := by
  refine ⟨⟨⟨(writeChunk (NdArray.mk (⟨2, [[1, 2], [3, 4]]⟩ : Mat F32)) 0).bytes.take 40, 32, 16⟩, 2, 2⟩,
    by decide +kernel, rfl, by decide +kernel⟩

/-- A file that promises a thousand more pages than it has cannot be written (`c71_write`). -/
example (off : Nat) : ∃ m : MmapArray, mmapNdArray (le32 2 ++ (le64 (20 + 4096000) ++ (le64 1024 ++ (le32 1000 ++ (le32 10 ++
    [0, 0, 0, 0]))))) 0 = .ok (m, 32 + 4096000) ∧ (writeChunk m off).status = .panic := by
  have hm : mmapNdArray (le32 2 ++ (le64 (20 + 4096000) ++ (le64 1024 ++ (le32 1000 ++ (le32 10 ++ [0, 0, 0, 0]))))) 0 =
      .ok (⟨⟨le32 2 ++ (le64 (20 + 4096000) ++ (le64 1024 ++ (le32 1000 ++ (le32 10 ++ [0, 0, 0, 0])))), 32, 4096000⟩,
        1024, 1000⟩, 32 + 4096000) := by decide +kernel
  obtain ⟨_, -, -, h, -⟩ := c71_write _ 0 _ 1024 1000 _ hm rfl off
  exact ⟨_, hm, h.mpr (by decide)⟩

end Examples

end FF
