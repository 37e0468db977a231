import Verif.Props.Word2vec

/-!
# C49, C50, C54, C55: text formats and delimited tokens
-/

namespace FF

open Rd

/-! ## C54: delimited strings -/

/-- **C54** (delimiter present): the bytes before the delimiter are decoded, and reading continues right
after the delimiter. -/
theorem c54_token (delim : UInt8) (lossy : Bool) (pre s rest : Bytes) (h : delim ∉ s) :
    readToken delim lossy (pre ++ (s ++ delim :: rest)) pre.length =
      (decodeToken lossy s).map (·, pre.length + s.length + 1) := by
  unfold readToken
  have := readUntil_readsAt h pre.length pre rest rfl
  rw [List.append_assoc, List.singleton_append] at this
  rw [bind_apply, this]
  simp [Rd.lift, Nat.add_assoc]

/-- **C54** (strict and lossy decoding): the string whose bytes these are; without such a string the strict
reader reports a format error and the lossy one still returns a string. -/
theorem c54_decode (bs : Bytes) :
    (∀ lossy s, utf8 s = bs → decodeToken lossy bs = .ok s) ∧
    ((∀ s, utf8 s ≠ bs) → decodeToken false bs = .err .format ∧ ∃ s, decodeToken true bs = .ok s) := by
  refine ⟨fun lossy s h => h ▸ decodeToken_utf8 lossy s, fun h => ⟨?_, _, rfl⟩⟩
  have : utf8Decode bs = none := by
    cases hd : utf8Decode bs with
    | none => rfl
    | some s => exact absurd (utf8_of_utf8Decode hd) (h s)
  simp [decodeToken, this, Res.ofOption]

example : readToken 32 false [104, 105, 32, 120] 0 = .ok (['h', 'i'], 3) :=
  c54_token 32 false [] [104, 105] [120] (by decide)

/-- What happens at the end of the data without a delimiter: the last byte is dropped. -/
theorem c54_eof (delim : UInt8) (lossy : Bool) (pre s : Bytes) (h : delim ∉ s) :
    readToken delim lossy (pre ++ s) pre.length = (decodeToken lossy s.dropLast).map (·, pre.length + s.length) := by
  simp [readToken, readUntil, takeThrough_none h, Rd.lift]

/-- **C54 is false at the end of the data**: neither all remaining bytes nor an error is returned. -/
theorem c54_eof_false :
    ¬ ∀ (delim : UInt8) (s : Str), delim ∉ utf8 s → s ≠ [] →
      (∃ q, readToken delim false (utf8 s) 0 = .ok (s, q)) ∨ ∃ x, readToken delim false (utf8 s) 0 = .err x := by
  intro h
  have e : readToken 32 false (utf8 ['a', 'b']) 0 = .ok (['a'], 2) := by decide +kernel
  rcases h 32 ['a', 'b'] (by decide) (by decide) with ⟨q, hq⟩ | ⟨x, hx⟩
  · rw [e] at hq; exact absurd hq (by simp)
  · rw [e] at hx; cases hx

/-- **C54** (what holds in all cases): with a delimiter the token is complete and the delimiter is consumed;
without one all remaining bytes are consumed and all but the last are decoded. Missing: the last byte. -/
theorem c54_partial (delim : UInt8) (lossy : Bool) (pre s rest : Bytes) (h : delim ∉ s) :
    (readToken delim lossy (pre ++ (s ++ delim :: rest)) pre.length =
      (decodeToken lossy s).map (·, pre.length + s.length + 1)) ∧
    readToken delim lossy (pre ++ s) pre.length = (decodeToken lossy s.dropLast).map (·, pre.length + s.length) :=
  ⟨c54_token delim lossy pre s rest h, c54_eof delim lossy pre s h⟩

/-- **C54** (numbers): a printed number followed by a delimiter is read back. -/
theorem c54_number (delim : UInt8) (n : Nat) (hn : n ≤ usizeMax) (hd : delim.toNat < 48) (pre rest : Bytes) :
    readNumber delim (pre ++ (utf8 (printNat n) ++ delim :: rest)) pre.length =
      .ok (n, pre.length + (utf8 (printNat n)).length + 1) := by
  have := readNumber_readsAt (delim := delim) hn hd pre.length pre rest rfl
  simpa [Nat.add_assoc] using this

/-- Hypotheses of `c54_eof`, `c54_partial` and `c54_number`. -/
example := c54_eof 32 false [120] [104, 105] (by decide)
example := c54_partial 32 false [120] [104, 105] [121] (by decide)
example := c54_number 10 42 (by decide) (by decide) [120] [121]

example : readNumber 10 (utf8 ['4', '2', '\n']) 0 = .ok (42, 3) := by decide +kernel

/-- A number at the end of the data loses its last digit. -/
theorem c54_number_eof : readNumber 10 (utf8 ['4', '2']) 0 = .ok (4, 2) := by decide +kernel

/-! ## Lines and tokens, specified independently -/

/-- The lines of a byte string: pieces without line feed, each followed by a line feed, except that the last
line feed may be missing after a non-empty piece. -/
def IsLines (bs : Bytes) (ls : List Bytes) : Prop :=
  (∀ l ∈ ls, (10 : UInt8) ∉ l) ∧
  (bs = ls.flatMap (· ++ [10]) ∨ ∃ init last, ls = init ++ [last] ∧ last ≠ [] ∧ bs = init.flatMap (· ++ [10]) ++ last)

theorem takeThrough_cases (delim : UInt8) (bs : Bytes) :
    (∃ s rest, delim ∉ s ∧ bs = s ++ delim :: rest) ∨ delim ∉ bs := by
  induction bs with
  | nil => right; simp
  | cons b bs ih =>
    by_cases hb : b = delim
    · left; exact ⟨[], bs, by simp, by simp [hb]⟩
    · rcases ih with ⟨s, rest, h1, h2⟩ | h
      · left
        exact ⟨b :: s, rest, by simpa [h1] using fun h => hb h.symm, by simp [h2]⟩
      · right; simpa [h] using fun h => hb h.symm

theorem rawLines_spec (fuel : Nat) (bs : Bytes) (hf : bs.length < fuel) :
    IsLines bs ((rawLines fuel bs).map (stripLast 10)) := by
  induction fuel generalizing bs with
  | zero => omega
  | succ fuel ih =>
    rcases takeThrough_cases 10 bs with ⟨s, rest, hs, rfl⟩ | h
    · have ht := takeThrough_append hs rest
      have hr : rawLines (fuel + 1) (s ++ 10 :: rest) = (s ++ [10]) :: rawLines fuel rest := by
        obtain ⟨b, t, hbt⟩ : ∃ b t, s ++ [(10 : UInt8)] = b :: t := by cases s <;> exact ⟨_, _, rfl⟩
        simp only [rawLines, ht, hbt]
        congr 2
        rw [← hbt, show s ++ 10 :: rest = (s ++ [10]) ++ rest by simp]
        exact List.drop_left' rfl
      rw [hr, List.map_cons, stripLast_append]
      simp only [List.length_append, List.length_cons] at hf
      obtain ⟨h1, h2⟩ := ih rest (by omega)
      refine ⟨?_, ?_⟩
      · intro l hl
        rcases List.mem_cons.mp hl with rfl | hl
        · exact hs
        · exact h1 l hl
      · rcases h2 with h2 | ⟨init, last, h2, h3, h4⟩
        · left; rw [List.flatMap_cons, ← h2]; simp
        · right
          exact ⟨s :: init, last, by rw [h2]; rfl, h3, by rw [h4]; simp⟩
    · cases bs with
      | nil => simp [rawLines, takeThrough, IsLines]
      | cons b bs =>
        have ht := takeThrough_none h
        have hr : rawLines (fuel + 1) (b :: bs) = [b :: bs] := by
          simp only [rawLines, ht]
          rw [List.drop_length]
          cases fuel <;> simp [rawLines, takeThrough]
        have hs : stripLast 10 (b :: bs) = b :: bs := by
          unfold stripLast
          rw [if_neg]
          intro hl
          exact h (List.mem_of_getLast? hl)
        rw [hr, List.map_singleton, hs]
        refine ⟨by simpa using h, .inr ⟨[], b :: bs, rfl, by simp, by simp⟩⟩

/-- The reading loop sees exactly the lines. -/
theorem textLines_spec (bs : Bytes) : IsLines bs (textLines bs) := rawLines_spec _ bs (by omega)

/-- A text line and its tokens: the tokens in order, with ASCII white space around and at least one white space
character between them. -/
inductive TokensOf : Str → List Str → Prop
  | nil {s : Str} : (∀ c ∈ s, isAsciiWs c = true) → TokensOf s []
  | cons {lead t rest : Str} {ts : List Str} : (∀ c ∈ lead, isAsciiWs c = true) → IsToken t →
      (∀ c, rest.head? = some c → isAsciiWs c = true) → TokensOf rest ts → TokensOf (lead ++ (t ++ rest)) (t :: ts)

theorem parts_ws {s : Str} (h : ∀ c ∈ s, isAsciiWs c = true) (rest : Str) : parts (s ++ rest) = parts rest := by
  induction s with
  | nil => rfl
  | cons c s ih =>
    have hc := h c (by simp)
    have : parts (c :: (s ++ rest)) = parts (s ++ rest) := by
      simp [parts, splitBy, hc]
    rw [List.cons_append, this, ih fun x hx => h x (by simp [hx])]

theorem parts_token_append {t rest : Str} (ht : IsToken t) (hr : ∀ c, rest.head? = some c → isAsciiWs c = true) :
    parts (t ++ rest) = t :: parts rest := by
  cases rest with
  | nil => rw [List.append_nil, parts_token ht, parts_nil]
  | cons c rest =>
    have hc := hr c rfl
    have : parts (c :: rest) = parts rest := by simp [parts, splitBy, hc]
    rw [this]
    unfold parts
    rw [splitBy_append ht.2 hc, List.filter_cons, if_pos (by simpa using ht.1)]

theorem TokensOf.parts_eq {s : Str} {ts : List Str} (h : TokensOf s ts) : parts s = ts := by
  induction h with
  | nil h => have := parts_ws h []; rw [List.append_nil, parts_nil] at this; exact this
  | cons h1 h2 h3 _ ih => rw [parts_ws h1, parts_token_append h2 h3, ih]

theorem takeWhile_all (p : Char → Bool) (s : Str) : ∀ c ∈ s.takeWhile p, p c = true := by
  intro c hc
  induction s with
  | nil => simp at hc
  | cons a s ih =>
    simp only [List.takeWhile] at hc
    split at hc
    · rename_i hp
      rcases List.mem_cons.mp hc with rfl | hc
      · exact hp
      · exact ih hc
    · simp at hc

theorem tokensOf_parts (n : Nat) (s : Str) (hn : s.length ≤ n) : TokensOf s (parts s) := by
  induction n generalizing s with
  | zero =>
    have : s = [] := List.length_eq_zero_iff.mp (by omega)
    subst this
    rw [parts_nil]; exact .nil (by simp)
  | succ n ih =>
    have hlead := takeWhile_all isAsciiWs s
    have hs : s.takeWhile isAsciiWs ++ s.dropWhile isAsciiWs = s := List.takeWhile_append_dropWhile
    cases hd : s.dropWhile isAsciiWs with
    | nil =>
      rw [hd, List.append_nil] at hs
      rw [hs] at hlead
      have : parts s = [] := TokensOf.parts_eq (.nil hlead)
      rw [this]; exact .nil hlead
    | cons c u =>
      have hc : isAsciiWs c = false := head_dropWhile isAsciiWs s c (by rw [hd]; rfl)
      have htok : IsToken ((c :: u).takeWhile fun x => !isAsciiWs x) := by
        refine ⟨by simp [List.takeWhile, hc], fun x hx => ?_⟩
        have := takeWhile_all (fun x => !isAsciiWs x) (c :: u) x hx
        simpa using this
      have hcu : ((c :: u).takeWhile fun x => !isAsciiWs x) ++ ((c :: u).dropWhile fun x => !isAsciiWs x) = c :: u :=
        List.takeWhile_append_dropWhile
      have hrest : ∀ x, ((c :: u).dropWhile fun x => !isAsciiWs x).head? = some x → isAsciiWs x = true := by
        intro x hx
        have := head_dropWhile (fun x => !isAsciiWs x) (c :: u) x hx
        simpa using this
      have hlen : ((c :: u).dropWhile fun x => !isAsciiWs x).length ≤ n := by
        have h1 := congrArg List.length hs
        have h2 := congrArg List.length hcu
        have h3 : 0 < ((c :: u).takeWhile fun x => !isAsciiWs x).length := List.length_pos_iff.mpr htok.1
        rw [hd] at h1
        simp only [List.length_append] at h1 h2
        omega
      have := TokensOf.cons hlead htok hrest (ih _ hlen)
      rw [hcu] at this
      rw [hd] at hs
      rw [hs] at this
      have h2 := this.parts_eq
      rw [h2]; exact this

/-- The parts of a line are its tokens. -/
theorem parts_spec (s : Str) (ts : List Str) : parts s = ts ↔ TokensOf s ts :=
  ⟨fun h => h ▸ tokensOf_parts _ s (Nat.le_refl _), TokensOf.parts_eq⟩

/-! ## C49: round trip -/

section Text
variable {F : Type} [FloatText F]

open Embeddings in
theorem readTextLine_eq {w : Str} {v : List F} (hw : IsToken w) (hv : ∀ x ∈ v, FloatText.Faithful x) (lossy : Bool) :
    readTextLine lossy (utf8 (w ++ ' ' :: joinFloats v)) = .ok (w, v) := by
  unfold readTextLine
  rw [decodeToken_utf8, Res.ok_bind, parts_cons hw, parts_joinFloats hv]
  dsimp only
  rw [mapM_parse_print hv, Res.ok_bind, trimBy_none hw.2]
  rfl

open Embeddings in
theorem textRow_noNl {w : Str} {v : List F} (hw : IsToken w) (hv : ∀ x ∈ v, FloatText.Faithful x) :
    (10 : UInt8) ∉ utf8 (w ++ ' ' :: joinFloats v) := by
  refine not_mem_utf8_of (by decide) fun c hc he => ?_
  have hnl : c = '\n' := Char.ext (UInt32.toNat_inj.mp he)
  subst hnl
  rcases List.mem_append.mp hc with hc | hc
  · exact absurd (hw.2 _ hc) (by decide)
  · rcases List.mem_cons.mp hc with hc | hc
    · exact absurd hc (by decide)
    · exact joinFloats_noNl hv _ hc rfl

open Embeddings in
/-- Reading lines written by `write_text`, with or without a promised shape. -/
theorem readEmbeds_rows {T : Type} [Scalar F] (rows : List (Str × List F)) (k : Nat) (hne : rows ≠ [])
    (hnd : (rows.map (·.1)).Nodup) (hk : ∀ r ∈ rows, r.2.length = k) (hw : ∀ r ∈ rows, IsToken r.1)
    (hv : ∀ r ∈ rows, ∀ x ∈ r.2, FloatText.Faithful x) (shape : Option (Nat × Nat))
    (hs : shape = none ∨ (shape = some (rows.length, k) ∧ 24 * rows.length ≤ isizeMax ∧ 4 * (rows.length * k) ≤ isizeMax))
    (lossy : Bool) (pre : Bytes) :
    (readEmbeds shape lossy (pre ++ rows.flatMap fun r => utf8 (r.1 ++ ' ' :: joinFloats r.2) ++ [10]) pre.length :
      Res (Embeddings T SimpleVocab (NdArray F) F)) =
      .ok ⟨none, ⟨⟨k, rows.map (·.2)⟩⟩, ⟨indexMap (rows.map (·.1)), rows.map (·.1)⟩, none⟩ := by
  have hn : 0 < rows.length := List.length_pos_iff.mpr hne
  have halloc : allocTable shape = .ok () := by
    rcases hs with rfl | ⟨rfl, h1, h2⟩
    · rfl
    · simp [allocTable, h1, h2]
  have hlines : textLines (rows.flatMap fun r => utf8 (r.1 ++ ' ' :: joinFloats r.2) ++ [10]) =
      rows.map fun r => utf8 (r.1 ++ ' ' :: joinFloats r.2) := by
    rw [← textLines_flatMap (ls := rows.map fun r => utf8 (r.1 ++ ' ' :: joinFloats r.2))]
    · rw [List.flatMap_map]
    · intro l hl
      obtain ⟨r, hr, rfl⟩ := List.mem_map.mp hl
      exact textRow_noNl (hw r hr) (hv r hr)
  have hmap : (rows.map fun r => utf8 (r.1 ++ ' ' :: joinFloats r.2)).mapM (readTextLine (F := F) lossy) = .ok rows := by
    clear hlines halloc hs hnd hne hn
    induction rows with
    | nil => rfl
    | cons r rows ih =>
      simp only [List.map_cons, List.mapM_cons]
      rw [readTextLine_eq (hw r (by simp)) (hv r (by simp)), Res.ok_bind,
        ih (fun x hx => hk x (by simp [hx])) (fun x hx => hw x (by simp [hx])) (fun x hx => hv x (by simp [hx]))]
      rfl
  have hflat : (rows.map (·.2)).flatten.length = rows.length * k := by
    have := length_flatten_of (ls := rows.map (·.2)) (k := k) (by
      intro l hl
      obtain ⟨r, hr, rfl⟩ := List.mem_map.mp hl
      exact hk r hr)
    simpa using this
  have hshape : tableShape shape rows.length (rows.map (·.2)).flatten.length = .ok (rows.length, k) := by
    rw [hflat]
    have hdiv : rows.length * k / rows.length = k := Nat.mul_div_cancel_left k hn
    rcases hs with rfl | ⟨rfl, -, -⟩
    · simp only [tableShape]
      rw [if_neg (by omega), hdiv]
    · simp only [tableShape]
      rw [if_neg (by simp), if_neg (by omega), hdiv, if_neg (by simp)]
  have hmat : fromShapeVec (rows.length, k) (rows.map (·.2)).flatten = .ok ⟨k, rows.map (·.2)⟩ := by
    unfold fromShapeVec
    rw [if_pos hflat]
    have := chunks_flatten (rows.map (·.2)) k (by
      intro l hl
      obtain ⟨r, hr, rfl⟩ := List.mem_map.mp hl
      exact hk r hr) []
    simp only [List.append_nil, List.length_map] at this
    simp only [Mat.ofFlat, this]
  have hvoc : SimpleVocab.new (rows.map (·.1)) = .ok ⟨indexMap (rows.map (·.1)), rows.map (·.1)⟩ :=
    SimpleVocab.new_eq_ok.mpr ⟨hnd, rfl⟩
  have hil : (indexMap (rows.map (·.1))).len = rows.length := by
    have := (indexMap_len_iff (rows.map (·.1))).mpr hnd
    simpa using this
  unfold readEmbeds
  rw [halloc, Res.ok_bind, List.drop_left' rfl, hlines, hmap, Res.ok_bind, hshape, Res.ok_bind, hmat, Res.ok_bind,
    hvoc, Res.ok_bind, newWithMaybeNorms_eq_ok]
  refine ⟨?_, rfl⟩
  simp [Vocab.vocabLen, hil, Storage.shape, Mat.dim, Mat.nrows]

variable {T V S : Type} [Vocab V] [Storage S F] [Scalar F]

open Embeddings in
theorem writeText_bytes {e : Embeddings T V S F} {rs : List (Str × List F × F)} (h : e.iterWithNorms = .ok rs)
    (un : Bool) : (e.writeText un).Good ∧ (e.writeText un).bytes =
      (rs.map (outRow un)).flatMap fun r => utf8 (r.1 ++ ' ' :: joinFloats r.2) ++ [10] := by
  unfold writeText
  rw [eachRow_eq h]
  refine ⟨W.good_each fun _ _ => W.good_emit _, ?_⟩
  rw [W.bytes_each fun _ _ => W.good_emit _]
  simp only [W.bytes_emit, List.flatMap_map]

/-- The vector that is written for an iterated entry. -/
def writtenVector (un : Bool) (r : Str × List F × F) : List F :=
  if un then r.2.1.map (Scalar.mul · r.2.2) else r.2.1

/-- What comes back for an iterated entry if the components are changed by `g`. -/
def readRow (un : Bool) (g : F → F) (r : Str × List F × F) : Str × List F := (r.1, (writtenVector un r).map g)

omit [Scalar F] in
theorem joinFloats_map {g : F → F} {v : List F} (h : ∀ x ∈ v, FloatText.print (g x) = FloatText.print x) :
    Embeddings.joinFloats (v.map g) = Embeddings.joinFloats v := by
  induction v with
  | nil => rfl
  | cons x v ih =>
    have hx := h x (by simp)
    have := ih fun y hy => h y (by simp [hy])
    cases v with
    | nil => exact hx
    | cons y v =>
      simp only [List.map_cons, Embeddings.joinFloats] at this ⊢
      rw [this, hx]

theorem outRows_eq {un : Bool} {g : F → F} {rs : List (Str × List F × F)}
    (hval : ∀ r ∈ rs, ∀ x ∈ writtenVector un r, FloatText.print (g x) = FloatText.print x ∧ FloatText.Faithful (g x)) :
    ((rs.map (Embeddings.outRow un)).flatMap fun r => utf8 (r.1 ++ ' ' :: Embeddings.joinFloats r.2) ++ [10]) =
      (rs.map (readRow un g)).flatMap fun r => utf8 (r.1 ++ ' ' :: Embeddings.joinFloats r.2) ++ [10] := by
  rw [List.flatMap_map, List.flatMap_map, List.flatMap_def, List.flatMap_def]
  congr 1
  refine List.map_congr_left fun r hr => ?_
  show _ = utf8 (r.1 ++ ' ' :: Embeddings.joinFloats ((writtenVector un r).map g)) ++ [10]
  rw [joinFloats_map fun x hx => (hval r hr x hx).1]
  rfl

/-- The same without the dimensions line, if printing and parsing takes each component to its image under `g` (a NaN to the one
that the parser returns). -/
theorem c49_text_as {T' : Type} (e : Embeddings T V S F) (rs : List (Str × List F × F)) (h : e.iterWithNorms = .ok rs)
    (hne : rs ≠ []) (hnd : (rs.map (·.1)).Nodup) (hdims : ∀ r ∈ rs, r.2.1.length = e.dims)
    (hwords : ∀ r ∈ rs, IsToken r.1) (un lossy : Bool) (g : F → F)
    (hval : ∀ r ∈ rs, ∀ x ∈ writtenVector un r, FloatText.print (g x) = FloatText.print x ∧ FloatText.Faithful (g x)) :
    (e.writeText un).Good ∧
    ∃ e' : Embeddings T' SimpleVocab (NdArray F) F,
      Embeddings.readTextRaw lossy (e.writeText un).bytes 0 = .ok e' ∧
      SimpleVocab.new (rs.map (·.1)) = .ok e'.vocab ∧
      e'.storage.inner = ⟨e.dims, rs.map fun r => (writtenVector un r).map g⟩ ∧ e'.norms = none ∧ e'.metadata = none := by
  obtain ⟨hg, hb⟩ := writeText_bytes h un
  rw [outRows_eq hval] at hb
  have h1 : (rs.map (readRow un g)).map (·.1) = rs.map (·.1) := by
    simp [readRow, Function.comp_def]
  have h2 : (rs.map (readRow un g)).map (·.2) = (rs.map fun r => (writtenVector un r).map g) := by
    rw [List.map_map]; rfl
  have := readEmbeds_rows (T := T') (rs.map (readRow un g)) e.dims (by simpa using hne)
    (by rw [h1]; exact hnd)
    (by
      intro r hr
      obtain ⟨x, hx, rfl⟩ := List.mem_map.mp hr
      show ((writtenVector un x).map g).length = _
      rw [List.length_map]
      unfold writtenVector; split <;> simp [hdims x hx])
    (by
      intro r hr
      obtain ⟨x, hx, rfl⟩ := List.mem_map.mp hr
      exact hwords x hx)
    (by
      intro r hr
      obtain ⟨x, hx, rfl⟩ := List.mem_map.mp hr
      intro y hy
      obtain ⟨z, hz, rfl⟩ := List.mem_map.mp hy
      exact (hval x hx z hz).2)
    none (.inl rfl) lossy []
  rw [h1, h2] at this
  refine ⟨hg, ⟨none, ⟨⟨e.dims, rs.map fun r => (writtenVector un r).map g⟩⟩, ⟨indexMap (rs.map (·.1)), rs.map (·.1)⟩, none⟩, ?_,
    SimpleVocab.new_eq_ok.mpr ⟨hnd, rfl⟩, rfl, rfl, rfl⟩
  rw [hb]
  exact this

/-- The same with the dimensions line. -/
theorem c49_text_dims_as {T' : Type} (e : Embeddings T V S F) (rs : List (Str × List F × F))
    (h : e.iterWithNorms = .ok rs) (hlen : Vocab.wordsLen e.vocab = rs.length)
    (hne : rs ≠ []) (hnd : (rs.map (·.1)).Nodup) (hdims : ∀ r ∈ rs, r.2.1.length = e.dims)
    (hwords : ∀ r ∈ rs, IsToken r.1) (un lossy : Bool) (g : F → F)
    (hval : ∀ r ∈ rs, ∀ x ∈ writtenVector un r, FloatText.print (g x) = FloatText.print x ∧ FloatText.Faithful (g x))
    (hmem : 4 * (rs.length * e.dims) ≤ isizeMax) (hmem' : 24 * rs.length ≤ isizeMax) :
    (e.writeTextDims un).Good ∧
    ∃ e' : Embeddings T' SimpleVocab (NdArray F) F,
      Embeddings.readTextDimsRaw lossy (e.writeTextDims un).bytes 0 = .ok e' ∧
      SimpleVocab.new (rs.map (·.1)) = .ok e'.vocab ∧
      e'.storage.inner = ⟨e.dims, rs.map fun r => (writtenVector un r).map g⟩ ∧ e'.norms = none ∧ e'.metadata = none := by
  obtain ⟨hg, hb⟩ := writeText_bytes h un
  rw [outRows_eq hval] at hb
  have hlpos : 0 < rs.length := List.length_pos_iff.mpr hne
  have hu : isizeMax ≤ usizeMax := by decide
  have hdle : e.dims ≤ rs.length * e.dims := Nat.le_mul_of_pos_left _ hlpos
  have h1 : (rs.map (readRow un g)).map (·.1) = rs.map (·.1) := by
    simp [readRow, Function.comp_def]
  have h2 : (rs.map (readRow un g)).map (·.2) = (rs.map fun r => (writtenVector un r).map g) := by
    rw [List.map_map]; rfl
  have := readEmbeds_rows (T := T') (rs.map (readRow un g)) e.dims (by simpa using hne)
    (by rw [h1]; exact hnd)
    (by
      intro r hr
      obtain ⟨x, hx, rfl⟩ := List.mem_map.mp hr
      show ((writtenVector un x).map g).length = _
      rw [List.length_map]
      unfold writtenVector; split <;> simp [hdims x hx])
    (by
      intro r hr
      obtain ⟨x, hx, rfl⟩ := List.mem_map.mp hr
      exact hwords x hx)
    (by
      intro r hr
      obtain ⟨x, hx, rfl⟩ := List.mem_map.mp hr
      intro y hy
      obtain ⟨z, hz, rfl⟩ := List.mem_map.mp hy
      exact (hval x hx z hz).2)
    (some (rs.length, e.dims)) (.inr ⟨by simp, by simpa using hmem', by simpa using hmem⟩) lossy
    ((utf8 (printNat rs.length) ++ [32]) ++ (utf8 (printNat e.dims) ++ [10]))
  rw [h1, h2] at this
  refine ⟨W.good_seq (show e.shapeLine.Good from rfl) hg,
    ⟨none, ⟨⟨e.dims, rs.map fun r => (writtenVector un r).map g⟩⟩, ⟨indexMap (rs.map (·.1)), rs.map (·.1)⟩, none⟩, ?_,
    SimpleVocab.new_eq_ok.mpr ⟨hnd, rfl⟩, rfl, rfl, rfl⟩
  have hbytes : (e.writeTextDims un).bytes = ((utf8 (printNat rs.length) ++ [32]) ++ (utf8 (printNat e.dims) ++ [10])) ++
      (rs.map (readRow un g)).flatMap fun r => utf8 (r.1 ++ ' ' :: Embeddings.joinFloats r.2) ++ [10] := by
    unfold Embeddings.writeTextDims
    rw [W.bytes_seq (show e.shapeLine.Good from rfl), hb, Embeddings.shapeLine, W.bytes_emit, hlen]
    simp
  have r1 := readNumber_readsAt (delim := 32) (n := rs.length) (by omega) (by decide) 0 []
    ((utf8 (printNat e.dims) ++ [10]) ++
      (rs.map (readRow un g)).flatMap fun r => utf8 (r.1 ++ ' ' :: Embeddings.joinFloats r.2) ++ [10]) rfl
  have r2 := readNumber_readsAt (delim := 10) (n := e.dims) (by omega) (by decide) _
    (utf8 (printNat rs.length) ++ [32])
    ((rs.map (readRow un g)).flatMap fun r => utf8 (r.1 ++ ' ' :: Embeddings.joinFloats r.2) ++ [10]) rfl
  unfold Embeddings.readTextDimsRaw
  rw [hbytes]
  simp only [List.nil_append, List.append_assoc, Nat.zero_add, List.length_append] at r1 r2 this ⊢
  rw [r1, Res.ok_bind]
  dsimp only
  rw [r2, Res.ok_bind]
  dsimp only
  rw [Nat.add_assoc]
  exact this

/-- **C49** (without dimensions line). Whatever was iterated over is read back, by the strict and the lossy
reader: the same words in the same order and the same (stored or unnormalised) vectors. Needed: at least one
word; words are not empty and contain no ASCII white space; printing and parsing the components is the
identity. -/
theorem c49_text {T' : Type} (e : Embeddings T V S F) (rs : List (Str × List F × F)) (h : e.iterWithNorms = .ok rs)
    (hne : rs ≠ []) (hnd : (rs.map (·.1)).Nodup) (hdims : ∀ r ∈ rs, r.2.1.length = e.dims)
    (hwords : ∀ r ∈ rs, IsToken r.1) (un lossy : Bool)
    (hval : ∀ r ∈ rs, ∀ x ∈ writtenVector un r, FloatText.Faithful x) :
    (e.writeText un).Good ∧
    ∃ e' : Embeddings T' SimpleVocab (NdArray F) F,
      Embeddings.readTextRaw lossy (e.writeText un).bytes 0 = .ok e' ∧
      SimpleVocab.new (rs.map (·.1)) = .ok e'.vocab ∧
      e'.storage.inner = ⟨e.dims, rs.map (writtenVector un)⟩ ∧ e'.norms = none ∧ e'.metadata = none := by
  have := c49_text_as (T' := T') e rs h hne hnd hdims hwords un lossy id (fun r hr x hx => ⟨rfl, hval r hr x hx⟩)
  simpa only [List.map_id] using this

/-- **C49** (with dimensions line). -/
theorem c49_text_dims {T' : Type} (e : Embeddings T V S F) (rs : List (Str × List F × F))
    (h : e.iterWithNorms = .ok rs) (hlen : Vocab.wordsLen e.vocab = rs.length)
    (hne : rs ≠ []) (hnd : (rs.map (·.1)).Nodup) (hdims : ∀ r ∈ rs, r.2.1.length = e.dims)
    (hwords : ∀ r ∈ rs, IsToken r.1) (un lossy : Bool)
    (hval : ∀ r ∈ rs, ∀ x ∈ writtenVector un r, FloatText.Faithful x)
    (hmem : 4 * (rs.length * e.dims) ≤ isizeMax) (hmem' : 24 * rs.length ≤ isizeMax) :
    (e.writeTextDims un).Good ∧
    ∃ e' : Embeddings T' SimpleVocab (NdArray F) F,
      Embeddings.readTextDimsRaw lossy (e.writeTextDims un).bytes 0 = .ok e' ∧
      SimpleVocab.new (rs.map (·.1)) = .ok e'.vocab ∧
      e'.storage.inner = ⟨e.dims, rs.map (writtenVector un)⟩ ∧ e'.norms = none ∧ e'.metadata = none := by
  have := c49_text_dims_as (T' := T') e rs h hlen hne hnd hdims hwords un lossy id (fun r hr x hx => ⟨rfl, hval r hr x hx⟩) hmem hmem'
  simpa only [List.map_id] using this

/-! ## C50: malformed tables -/

/-- A line carries this word and these components: it decodes to a text whose first token is the word and whose
other tokens parse to the components. -/
def LineHas (lossy : Bool) (buf : Bytes) (r : Str × List F) : Prop :=
  ∃ s ps, decodeToken lossy buf = .ok s ∧ TokensOf s (r.1 :: ps) ∧ ps.map FloatText.parse = r.2.map some

omit [Scalar F] in
theorem mapM_parse_iff {ps : List Str} {xs : List F} :
    ps.mapM (fun p => Res.ofOption Err.format (FloatText.parse (F := F) p)) = .ok xs ↔
      ps.map FloatText.parse = xs.map some := by
  induction ps generalizing xs with
  | nil => cases xs <;> simp
  | cons p ps ih =>
    simp only [List.mapM_cons, List.map_cons]
    cases hp : FloatText.parse (F := F) p with
    | none => cases xs <;> simp [Res.ofOption]
    | some x =>
      simp only [Res.ofOption_some, Res.ok_bind]
      constructor
      · intro h
        obtain ⟨ys, hys, h⟩ := Res.bind_eq_ok.mp h
        cases h
        simp [ih.mp hys]
      · intro h
        cases xs with
        | nil => simp at h
        | cons y ys =>
          simp only [List.map_cons, List.cons.injEq, Option.some.injEq] at h
          obtain ⟨rfl, h⟩ := h
          rw [ih.mpr h]; rfl

omit [Scalar F] in
theorem mapM_parse_outcome (ps : List Str) :
    (∃ xs, ps.mapM (fun p => Res.ofOption Err.format (FloatText.parse (F := F) p)) = .ok xs) ∨
    ps.mapM (fun p => Res.ofOption Err.format (FloatText.parse (F := F) p)) = .err .format := by
  induction ps with
  | nil => left; exact ⟨[], rfl⟩
  | cons p ps ih =>
    simp only [List.mapM_cons]
    cases hp : FloatText.parse (F := F) p with
    | none => right; rfl
    | some x =>
      simp only [Res.ofOption_some, Res.ok_bind]
      rcases ih with ⟨xs, h⟩ | h
      · left; exact ⟨x :: xs, by rw [h]; rfl⟩
      · right; rw [h]; rfl

omit [Scalar F] in
open Embeddings in
theorem readTextLine_iff {lossy : Bool} {buf : Bytes} {r : Str × List F} :
    readTextLine lossy buf = .ok r ↔ LineHas lossy buf r := by
  unfold readTextLine LineHas
  constructor
  · intro h
    obtain ⟨s, hs, h⟩ := Res.bind_eq_ok.mp h
    cases hp : parts s with
    | nil => rw [hp] at h; cases h
    | cons w ps =>
      rw [hp] at h
      dsimp only at h
      obtain ⟨xs, hxs, h⟩ := Res.bind_eq_ok.mp h
      cases h
      have ht := (parts_spec s _).mp hp
      have hw : IsToken w := by cases ht with | cons _ h _ _ => exact h
      exact ⟨s, ps, hs, by rwa [trimBy_none hw.2], mapM_parse_iff.mp hxs⟩
  · rintro ⟨s, ps, hs, ht, hx⟩
    have hw : IsToken r.1 := by cases ht with | cons _ h _ _ => exact h
    rw [hs, Res.ok_bind, (parts_spec s _).mpr ht]
    dsimp only
    rw [mapM_parse_iff.mpr hx, Res.ok_bind, trimBy_none hw.2]
    rfl

omit [Scalar F] in
open Embeddings in
theorem readTextLine_outcome (lossy : Bool) (buf : Bytes) :
    (∃ r, readTextLine (F := F) lossy buf = .ok r) ∨ readTextLine (F := F) lossy buf = .err .format := by
  unfold readTextLine
  have hd : (∃ s, decodeToken lossy buf = .ok s) ∨ decodeToken lossy buf = .err .format := by
    cases lossy with
    | true => left; exact ⟨_, rfl⟩
    | false =>
      simp only [decodeToken]
      cases utf8Decode buf with
      | none => right; rfl
      | some s => left; exact ⟨s, rfl⟩
  rcases hd with ⟨s, hs⟩ | hs
  · rw [hs, Res.ok_bind]
    cases hp : parts s with
    | nil => right; rfl
    | cons w ps =>
      dsimp only
      rcases mapM_parse_outcome (F := F) ps with ⟨xs, h⟩ | h
      · left; exact ⟨_, by rw [h]; rfl⟩
      · right; rw [h]; rfl
  · right; rw [hs]; rfl

theorem mapM_outcome {α β : Type} {f : α → Res β} {x : Err} (h : ∀ a, (∃ b, f a = .ok b) ∨ f a = .err x)
    (l : List α) : ((∃ bs, l.mapM f = .ok bs) ∧ ∀ a ∈ l, ∃ b, f a = .ok b) ∨
      (l.mapM f = .err x ∧ ∃ a ∈ l, f a = .err x) := by
  induction l with
  | nil => left; exact ⟨⟨[], rfl⟩, by simp⟩
  | cons a l ih =>
    simp only [List.mapM_cons]
    rcases h a with ⟨b, hb⟩ | hb
    · rw [hb, Res.ok_bind]
      rcases ih with ⟨⟨bs, h1⟩, h2⟩ | ⟨h1, c, hc, h2⟩
      · left
        refine ⟨⟨b :: bs, by rw [h1]; rfl⟩, ?_⟩
        intro c hc
        rcases List.mem_cons.mp hc with rfl | hc
        · exact ⟨b, hb⟩
        · exact h2 c hc
      · right; exact ⟨by rw [h1]; rfl, c, by simp [hc], h2⟩
    · right; exact ⟨by rw [hb]; rfl, a, by simp, hb⟩

/-- Uniqueness of the lines. -/
theorem rawLines_last {ls : List Bytes} {last : Bytes} (h : ∀ l ∈ ls, (10 : UInt8) ∉ l) (hl : (10 : UInt8) ∉ last)
    (hne : last ≠ []) (fuel : Nat) (hf : ls.length + 1 < fuel) :
    rawLines fuel (ls.flatMap (· ++ [10]) ++ last) = ls.map (· ++ [10]) ++ [last] := by
  induction ls generalizing fuel with
  | nil =>
    obtain ⟨f, rfl⟩ : ∃ f, fuel = f + 2 := ⟨fuel - 2, by simp at hf; omega⟩
    obtain ⟨b, t, rfl⟩ : ∃ b t, last = b :: t := by
      cases last with
      | nil => exact absurd rfl hne
      | cons b t => exact ⟨b, t, rfl⟩
    simp only [List.flatMap_nil, List.nil_append, List.map_nil, rawLines, takeThrough_none hl]
    rw [List.drop_length]
    simp [takeThrough]
  | cons l ls ih =>
    cases fuel with
    | zero => simp at hf
    | succ f =>
      simp only [List.length_cons] at hf
      have ht : takeThrough 10 ((l :: ls).flatMap (· ++ [10]) ++ last) = l ++ [10] := by
        simp only [List.flatMap_cons, List.append_assoc, List.singleton_append]
        exact takeThrough_append (h l (by simp)) _
      have hd : ((l :: ls).flatMap (· ++ [10]) ++ last).drop (l ++ [10]).length = ls.flatMap (· ++ [10]) ++ last := by
        simp only [List.flatMap_cons]
        rw [List.append_assoc]
        exact List.drop_left' rfl
      obtain ⟨b, t, hbt⟩ : ∃ b t, l ++ [(10 : UInt8)] = b :: t := by cases l <;> exact ⟨_, _, rfl⟩
      simp only [rawLines]
      rw [ht, hbt]
      dsimp only
      rw [← hbt, hd, ih (fun x hx => h x (by simp [hx])) f (by omega)]
      simp

theorem IsLines.eq {bs : Bytes} {ls : List Bytes} (h : IsLines bs ls) : ls = textLines bs := by
  obtain ⟨h1, rfl | ⟨init, last, rfl, h3, rfl⟩⟩ := h
  · exact (textLines_flatMap h1).symm
  · have hlast : (10 : UInt8) ∉ last := h1 last (by simp)
    have hstrip : stripLast 10 last = last := by
      unfold stripLast
      rw [if_neg]
      intro hl
      exact hlast (List.mem_of_getLast? hl)
    unfold textLines
    rw [rawLines_last (fun l hl => h1 l (by simp [hl])) hlast h3 _ (by
      have h0 : init.length ≤ (init.flatMap (· ++ [10])).length := length_le_flatMap init
      have : 0 < last.length := List.length_pos_iff.mpr h3
      rw [List.length_append]; omega)]
    simp only [List.map_append, List.map_map, List.map_singleton, hstrip]
    congr 1
    conv => lhs; rw [← List.map_id init]
    exact List.map_congr_left fun l _ => (stripLast_append 10 l).symm

/-- Shapes for which the reader can allocate its buffers: no shape, or one that fits into memory. -/
def ShapeFits : Option (Nat × Nat) → Prop
  | none => True
  | some (n, k) => 24 * n ≤ isizeMax ∧ 4 * (n * k) ≤ isizeMax

theorem allocTable_fits {shape : Option (Nat × Nat)} (h : ShapeFits shape) : Embeddings.allocTable shape = .ok () := by
  cases shape with
  | none => rfl
  | some p => obtain ⟨n, k⟩ := p; simp [Embeddings.allocTable, h.1, h.2]

/-- The lines carry these rows, one by one. -/
def LinesHave (lossy : Bool) (lines : List Bytes) (rows : List (Str × List F)) : Prop :=
  lines.length = rows.length ∧ ∀ (i : Nat) l r, lines[i]? = some l → rows[i]? = some r → LineHas lossy l r

omit [Scalar F] in
theorem linesHave_iff {lossy : Bool} {lines : List Bytes} {rows : List (Str × List F)} :
    lines.mapM (Embeddings.readTextLine lossy) = .ok rows ↔ LinesHave lossy lines rows := by
  rw [Res.mapM_eq_ok_iff]
  constructor
  · intro h
    refine ⟨by simpa using congrArg List.length h, fun i l r hl hr => ?_⟩
    have := congrArg (·[i]?) h
    simp only [List.getElem?_map, hl, hr, Option.map_some, Option.some.injEq] at this
    exact readTextLine_iff.mp this
  · rintro ⟨h1, h2⟩
    apply List.ext_getElem?
    intro i
    rw [List.getElem?_map, List.getElem?_map]
    cases hl : lines[i]? with
    | none =>
      have : rows[i]? = none := by
        rw [List.getElem?_eq_none_iff] at hl ⊢; omega
      rw [this]; rfl
    | some l =>
      cases hr : rows[i]? with
      | none =>
        rw [List.getElem?_eq_none_iff] at hr
        obtain ⟨hi, -⟩ := List.getElem?_eq_some_iff.mp hl
        omega
      | some r => simp [readTextLine_iff.mpr (h2 i l r hl hr)]

omit [Scalar F] in
/-- **C50** (what holds): a line that is not valid text, is empty, or has a component that is not a number makes
the reader return an error; so does a number of lines or a total number of components other than promised,
and, without a promise, a total number of components that is not a multiple of the number of lines. What is
missing: the number of components of the single lines (`c50_ragged_false`) and files without words or with
repeated words (`c50_panic_false`). -/
theorem c50_partial (shape : Option (Nat × Nat)) (hfit : ShapeFits shape) (lossy : Bool) (d : Bytes) (pos : Nat)
    (lines : List Bytes) (hl : IsLines (d.drop pos) lines) :
    ((∃ l ∈ lines, ∀ r : Str × List F, ¬ LineHas lossy l r) →
      (Embeddings.readEmbeds shape lossy d pos : Res (Embeddings T SimpleVocab (NdArray F) F)) = .err .format) ∧
    ∀ rows : List (Str × List F), LinesHave lossy lines rows →
      (∀ n k, shape = some (n, k) → rows.length ≠ n ∨ n ≠ 0 ∧ (rows.map (·.2)).flatten.length ≠ n * k →
        ∃ x, (Embeddings.readEmbeds shape lossy d pos : Res (Embeddings T SimpleVocab (NdArray F) F)) = .err x) ∧
      (shape = none → rows ≠ [] → ¬ rows.length ∣ (rows.map (·.2)).flatten.length →
        (Embeddings.readEmbeds shape lossy d pos : Res (Embeddings T SimpleVocab (NdArray F) F)) = .err .shape) := by
  obtain rfl := hl.eq
  refine ⟨?_, ?_⟩
  · rintro ⟨l, hl, hno⟩
    unfold Embeddings.readEmbeds
    rw [allocTable_fits hfit, Res.ok_bind]
    rcases mapM_outcome (readTextLine_outcome (F := F) lossy) (textLines (d.drop pos)) with ⟨-, h⟩ | ⟨h, -⟩
    · obtain ⟨r, hr⟩ := h l hl
      exact absurd (readTextLine_iff.mp hr) (hno r)
    · rw [h]; rfl
  · intro rows hrows
    unfold Embeddings.readEmbeds
    rw [allocTable_fits hfit, Res.ok_bind, linesHave_iff.mpr hrows, Res.ok_bind]
    refine ⟨?_, ?_⟩
    · rintro n k rfl h
      simp only [Embeddings.tableShape]
      by_cases h1 : rows.length ≠ n
      · exact ⟨.format, by rw [if_pos h1]; rfl⟩
      · rcases h with h | ⟨h0, h⟩
        · exact absurd h h1
        · rw [if_neg h1, if_neg h0]
          by_cases h2 : (rows.map (·.2)).flatten.length / n ≠ k
          · exact ⟨.format, by rw [if_pos h2]; rfl⟩
          · refine ⟨.shape, ?_⟩
            rw [if_neg h2, Res.ok_bind]
            unfold Embeddings.fromShapeVec
            rw [if_neg h]; rfl
    · rintro rfl hne hdvd
      have hlen : rows.length ≠ 0 := fun h => hne (List.length_eq_zero_iff.mp h)
      simp only [Embeddings.tableShape]
      rw [if_neg hlen, Res.ok_bind]
      unfold Embeddings.fromShapeVec
      rw [if_neg (fun h => hdvd ⟨_, h⟩)]
      rfl

omit [Scalar F] in
/-- **C50** (accepted files): the reader succeeds exactly on tables with at least one line, distinct words and
a fitting total number of components. -/
theorem c50_accepts (shape : Option (Nat × Nat)) (hfit : ShapeFits shape) (lossy : Bool) (d : Bytes) (pos : Nat)
    (lines : List Bytes) (hl : IsLines (d.drop pos) lines) (e : Embeddings T SimpleVocab (NdArray F) F) :
    Embeddings.readEmbeds shape lossy d pos = .ok e ↔
      ∃ (rows : List (Str × List F)) (k : Nat), LinesHave lossy lines rows ∧ rows ≠ [] ∧
        (rows.map (·.1)).Nodup ∧ (rows.map (·.2)).flatten.length = rows.length * k ∧
        (∀ s, shape = some s → s = (rows.length, k)) ∧
        e = ⟨none, ⟨Mat.ofFlat rows.length k (rows.map (·.2)).flatten⟩,
          ⟨indexMap (rows.map (·.1)), rows.map (·.1)⟩, none⟩ := by
  obtain rfl := hl.eq
  unfold Embeddings.readEmbeds
  rw [allocTable_fits hfit, Res.ok_bind]
  constructor
  · intro h
    obtain ⟨rows, hrows, h⟩ := Res.bind_eq_ok.mp h
    obtain ⟨sh, hsh, h⟩ := Res.bind_eq_ok.mp h
    obtain ⟨m, hm, h⟩ := Res.bind_eq_ok.mp h
    obtain ⟨v, hv, h⟩ := Res.bind_eq_ok.mp h
    obtain ⟨hnd, rfl⟩ := SimpleVocab.new_eq_ok.mp hv
    obtain ⟨-, rfl⟩ := Embeddings.newWithMaybeNorms_eq_ok.mp h
    unfold Embeddings.fromShapeVec at hm
    split at hm
    · rename_i hlen
      cases hm
      have hsh' : rows.length ≠ 0 ∧ sh.1 = rows.length ∧ ∀ s, shape = some s → s = sh := by
        cases shape with
        | none =>
          simp only [Embeddings.tableShape] at hsh
          split at hsh
          · cases hsh
          · cases hsh; exact ⟨by assumption, rfl, by simp⟩
        | some p =>
          obtain ⟨n, k⟩ := p
          simp only [Embeddings.tableShape] at hsh
          split at hsh
          · cases hsh
          · rename_i h1
            split at hsh
            · cases hsh
            · rename_i h2
              split at hsh
              · cases hsh
              · cases hsh
                simp only [ne_eq, Decidable.not_not] at h1
                exact ⟨by omega, h1.symm, by simp⟩
      obtain ⟨h0, h1, h2⟩ := hsh'
      obtain ⟨n, k⟩ := sh
      dsimp only at h1
      subst h1
      exact ⟨rows, k, linesHave_iff.mp hrows, fun h => h0 (by simp [h]), hnd, hlen, h2, rfl⟩
    · cases hm
  · rintro ⟨rows, k, hrows, hne, hnd, hlen, hs, rfl⟩
    have h0 : rows.length ≠ 0 := fun h => hne (List.length_eq_zero_iff.mp h)
    have hdiv : rows.length * k / rows.length = k := Nat.mul_div_cancel_left k (by omega)
    have hsh : Embeddings.tableShape shape rows.length (rows.map (·.2)).flatten.length = .ok (rows.length, k) := by
      rw [hlen]
      cases shape with
      | none => simp only [Embeddings.tableShape]; rw [if_neg h0, hdiv]
      | some s =>
        obtain rfl := hs s rfl
        simp only [Embeddings.tableShape]
        rw [if_neg (by simp), if_neg h0, hdiv, if_neg (by simp)]
    have hil : (indexMap (rows.map (·.1))).len = rows.length := by
      have := (indexMap_len_iff (rows.map (·.1))).mpr hnd
      simpa using this
    rw [linesHave_iff.mpr hrows, Res.ok_bind, hsh, Res.ok_bind]
    unfold Embeddings.fromShapeVec
    rw [if_pos hlen, Res.ok_bind, SimpleVocab.new_eq_ok.mpr ⟨hnd, rfl⟩, Res.ok_bind,
      Embeddings.newWithMaybeNorms_eq_ok]
    refine ⟨?_, rfl⟩
    simp [Vocab.vocabLen, hil, Storage.shape, Mat.dim]

omit [Scalar F] in
/-- **C49** (the condition on the words is necessary): every word that the reader returns is a token. -/
theorem c49_words (shape : Option (Nat × Nat)) (hfit : ShapeFits shape) (lossy : Bool) (d : Bytes) (pos : Nat)
    (e : Embeddings T SimpleVocab (NdArray F) F) (h : Embeddings.readEmbeds shape lossy d pos = .ok e) :
    ∀ w ∈ Vocab.words e.vocab, IsToken w := by
  obtain ⟨rows, k, ⟨h1, h2⟩, -, -, -, -, rfl⟩ := (c50_accepts shape hfit lossy d pos _ (textLines_spec _) e).mp h
  intro w hw
  obtain ⟨r, hr, rfl⟩ := List.mem_map.mp (show w ∈ rows.map (·.1) from hw)
  obtain ⟨i, hi⟩ := List.getElem?_of_mem hr
  cases hl : (textLines (d.drop pos))[i]? with
  | none =>
    rw [List.getElem?_eq_none_iff] at hl
    obtain ⟨hi', -⟩ := List.getElem?_eq_some_iff.mp hi
    omega
  | some l =>
    obtain ⟨s, ps, -, ht, -⟩ := h2 i l r hl hi
    cases ht with | cons _ h _ _ => exact h

omit [Scalar F] in
/-- **C50** (panics): the reader panics exactly on tables without lines (where it divides by zero, unless a
positive number of words is promised) and on otherwise acceptable tables with a repeated word. -/
theorem c50_panics (shape : Option (Nat × Nat)) (hfit : ShapeFits shape) (lossy : Bool) (d : Bytes) (pos : Nat)
    (lines : List Bytes) (hl : IsLines (d.drop pos) lines) :
    (Embeddings.readEmbeds shape lossy d pos : Res (Embeddings T SimpleVocab (NdArray F) F)) = .panic ↔
      (lines = [] ∧ ∀ s, shape = some s → s.1 = 0) ∨
      ∃ (rows : List (Str × List F)) (k : Nat), LinesHave lossy lines rows ∧ rows ≠ [] ∧
        (rows.map (·.2)).flatten.length = rows.length * k ∧ (∀ s, shape = some s → s = (rows.length, k)) ∧
        ¬ (rows.map (·.1)).Nodup := by
  obtain rfl := hl.eq
  unfold Embeddings.readEmbeds
  rw [allocTable_fits hfit, Res.ok_bind]
  rcases mapM_outcome (readTextLine_outcome (F := F) lossy) (textLines (d.drop pos)) with ⟨⟨rows, hrows⟩, hall⟩ | ⟨herr, l, hl', hlerr⟩
  · have huniq : ∀ rows', LinesHave lossy (textLines (d.drop pos)) rows' → rows' = rows := by
      intro rows' h
      have := linesHave_iff.mpr h
      rw [hrows] at this
      exact (Res.ok.inj this).symm
    have hlen : rows = [] ↔ textLines (d.drop pos) = [] := by
      rw [← List.length_eq_zero_iff, ← List.length_eq_zero_iff, (linesHave_iff.mp hrows).1]
    rw [hrows, Res.ok_bind]
    by_cases hnil : rows = []
    · subst hnil
      have hz := hlen.mp rfl
      constructor
      · intro h
        left
        refine ⟨hz, ?_⟩
        rintro ⟨n, k⟩ rfl
        by_cases hn : n = 0
        · exact hn
        · exfalso
          simp only [Embeddings.tableShape, List.length_nil] at h
          rw [if_pos (fun h => hn h.symm)] at h
          cases h
      · rintro (⟨-, h⟩ | ⟨rows', k, h1, h2, -⟩)
        · cases shape with
          | none => rfl
          | some s =>
            obtain ⟨n, k⟩ := s
            have : n = 0 := h _ rfl
            subst this
            simp [Embeddings.tableShape]
        · exact absurd (huniq rows' h1) h2
    · have h0 : rows.length ≠ 0 := fun h => hnil (List.length_eq_zero_iff.mp h)
      by_cases hk : ∃ k, (rows.map (·.2)).flatten.length = rows.length * k ∧ ∀ s, shape = some s → s = (rows.length, k)
      · obtain ⟨k, hk, hs⟩ := hk
        have hdiv : rows.length * k / rows.length = k := Nat.mul_div_cancel_left k (by omega)
        have hsh : Embeddings.tableShape shape rows.length (rows.map (·.2)).flatten.length = .ok (rows.length, k) := by
          rw [hk]
          cases shape with
          | none => simp only [Embeddings.tableShape]; rw [if_neg h0, hdiv]
          | some s =>
            obtain rfl := hs s rfl
            simp only [Embeddings.tableShape]
            rw [if_neg (by simp), if_neg h0, hdiv, if_neg (by simp)]
        rw [hsh, Res.ok_bind]
        unfold Embeddings.fromShapeVec
        rw [if_pos hk, Res.ok_bind]
        by_cases hnd : (rows.map (·.1)).Nodup
        · have hil : (indexMap (rows.map (·.1))).len = rows.length := by
            have := (indexMap_len_iff (rows.map (·.1))).mpr hnd
            simpa using this
          have : (Embeddings.newWithMaybeNorms (T := T) (F := F) none
              (SimpleVocab.mk (indexMap (rows.map (·.1))) (rows.map (·.1)))
              (NdArray.mk (Mat.ofFlat rows.length k (rows.map (·.2)).flatten)) none) =
              .ok ⟨none, ⟨Mat.ofFlat rows.length k (rows.map (·.2)).flatten⟩,
                ⟨indexMap (rows.map (·.1)), rows.map (·.1)⟩, none⟩ := by
            rw [Embeddings.newWithMaybeNorms_eq_ok]
            exact ⟨by simp [Vocab.vocabLen, hil, Storage.shape, Mat.dim], rfl⟩
          rw [SimpleVocab.new_eq_ok.mpr ⟨hnd, rfl⟩, Res.ok_bind]
          dsimp only
          rw [this]
          constructor
          · intro h; cases h
          · rintro (⟨h, -⟩ | ⟨rows', k', h1, -, -, -, h2⟩)
            · exact absurd (hlen.mpr h) hnil
            · exact absurd hnd (huniq rows' h1 ▸ h2)
        · rw [SimpleVocab.new_panic hnd]
          constructor
          · intro _; right; exact ⟨rows, k, linesHave_iff.mp hrows, hnil, hk, hs, hnd⟩
          · intro _; rfl
      · constructor
        · intro h
          exfalso
          cases shape with
          | none =>
            simp only [Embeddings.tableShape] at h
            rw [if_neg h0, Res.ok_bind] at h
            unfold Embeddings.fromShapeVec at h
            rw [if_neg (fun he => hk ⟨_, he, by simp⟩)] at h
            cases h
          | some s =>
            obtain ⟨n, k⟩ := s
            simp only [Embeddings.tableShape] at h
            by_cases h1 : rows.length ≠ n
            · rw [if_pos h1] at h; cases h
            · rw [if_neg h1] at h
              simp only [ne_eq, Decidable.not_not] at h1
              subst h1
              rw [if_neg h0] at h
              by_cases h2 : (rows.map (·.2)).flatten.length / rows.length ≠ k
              · rw [if_pos h2] at h; cases h
              · rw [if_neg h2, Res.ok_bind] at h
                unfold Embeddings.fromShapeVec at h
                rw [if_neg (fun he => hk ⟨k, he, by simp⟩)] at h
                cases h
        · rintro (⟨h, -⟩ | ⟨rows', k, h1, -, h3, h4, -⟩)
          · exact absurd (hlen.mpr h) hnil
          · obtain rfl := huniq rows' h1
            exact absurd ⟨k, h3, h4⟩ hk
  · rw [herr]
    constructor
    · intro h; cases h
    · rintro (⟨h, -⟩ | ⟨rows, k, h, -⟩)
      · rw [h] at hl'; simp at hl'
      · rw [linesHave_iff.mpr h] at herr; cases herr

end Text

/-! ## Examples and counterexamples -/

/-- A toy text format for components: bit patterns in decimal. Only used to show that the hypotheses of the
theorems can be met and for counterexamples. -/
@[instance_reducible] def exampleFloatText : FloatText F32 := ⟨fun x => printNat x.toNat, fun s => (parseUsize s).map UInt32.ofNat⟩

attribute [local instance] exampleScalar exampleFloatText

theorem isToken_printNat (n : Nat) : IsToken (printNat n) := by
  refine ⟨printNat_ne_nil n, fun c hc => ?_⟩
  have := printNat_digits n c hc
  simp only [isDigitChar, Bool.and_eq_true, decide_eq_true_eq] at this
  simp [isAsciiWs]; omega

theorem exampleFloatText_faithful (x : F32) : FloatText.Faithful x := by
  refine ⟨isToken_printNat _, ?_⟩
  show (parseUsize (printNat x.toNat)).map UInt32.ofNat = some x
  rw [parseUsize_printNat (by have := x.toNat_lt; unfold usizeMax; omega)]
  simp

/-- The hypotheses of `c49_text` and `c49_text_dims` can be met. -/
example (un lossy : Bool) :
    (∃ e' : Embeddings Str SimpleVocab (NdArray F32) F32,
      Embeddings.readTextRaw lossy (exampleW2v.writeText un).bytes 0 = .ok e' ∧
      SimpleVocab.new [['a'], ['b', 'é']] = .ok e'.vocab) ∧
    ∃ e' : Embeddings Str SimpleVocab (NdArray F32) F32,
      Embeddings.readTextDimsRaw lossy (exampleW2v.writeTextDims un).bytes 0 = .ok e' ∧
      SimpleVocab.new [['a'], ['b', 'é']] = .ok e'.vocab := by
  have hw : ∀ r ∈ [((['a'] : Str), [(1 : F32), 2, 3], (7 : F32)), (['b', 'é'], [4, 5, 0x20202020], 8)], IsToken r.1 := by
    intro r hr
    simp only [List.mem_cons, List.not_mem_nil, or_false] at hr
    rcases hr with rfl | rfl <;> exact ⟨by decide, by decide⟩
  obtain ⟨-, e1, h1, h1', -⟩ := c49_text (T' := Str) exampleW2v
    [(['a'], [1, 2, 3], 7), (['b', 'é'], [4, 5, 0x20202020], 8)] (by decide +kernel) (by simp)
    (by decide +kernel) (by decide +kernel) hw un lossy (fun _ _ x _ => exampleFloatText_faithful x)
  obtain ⟨-, e2, h2, h2', -⟩ := c49_text_dims (T' := Str) exampleW2v
    [(['a'], [1, 2, 3], 7), (['b', 'é'], [4, 5, 0x20202020], 8)] (by decide +kernel) (by decide +kernel) (by simp)
    (by decide +kernel) (by decide +kernel) hw un lossy (fun _ _ x _ => exampleFloatText_faithful x)
    (by decide +kernel) (by decide +kernel)
  exact ⟨⟨e1, h1, h1'⟩, e2, h2, h2'⟩

/-- A text as bytes. -/
def ascii (s : String) : Bytes := utf8 s.toList

/-- Outcome of reading a table of bit patterns: words and rows. -/
def exampleTable (s : String) : Res (List Str × List (List F32)) :=
  (Embeddings.readTextRaw false (ascii s) 0 : Res (Embeddings Str SimpleVocab (NdArray F32) F32)).map
    fun e => (e.vocab.words, e.storage.inner.rows)

/-- The same with a dimensions line. -/
def exampleTableDims (s : String) : Res (List Str × List (List F32)) :=
  (Embeddings.readTextDimsRaw false (ascii s) 0 : Res (Embeddings Str SimpleVocab (NdArray F32) F32)).map
    fun e => (e.vocab.words, e.storage.inner.rows)

/-- **C50 is false**: files whose lines have different numbers of components are accepted as long as the total
fits; components move to other words. With and without dimensions line. -/
theorem c50_ragged_false :
    exampleTable "a 1\nb 2 3 4\n" = .ok ([['a'], ['b']], [[1, 2], [3, 4]]) ∧
    exampleTableDims "2 2\na 1\nb 2 3 4\n" = .ok ([['a'], ['b']], [[1, 2], [3, 4]]) := by
  decide +kernel

/-- **C50 is false**: the empty file, a file without words, repeated words and absurd promises panic. -/
theorem c50_panic_false :
    exampleTable "" = .panic ∧ exampleTableDims "0 3\n" = .panic ∧ exampleTable "a 1\na 2\n" = .panic ∧
    exampleTableDims "9223372036854775807 1\n" = .panic := by
  decide +kernel

/-- The cases of `c50_partial` occur. -/
example : exampleTable "a 1\nb x\n" = .err .format ∧ exampleTable "a 1\n\nb 2\n" = .err .format ∧
    exampleTable "a 1\nb 2 3\n" = .err .shape ∧ exampleTableDims "2 1\na 1\n" = .err .format ∧
    exampleTableDims "2 1\na 1\nb 2 3 4 5\n" = .err .format ∧
    exampleTable "a 1\nb 2" = .ok ([['a'], ['b']], [[1], [2]]) := by
  refine ⟨?_, ?_, ?_, ?_, ?_, ?_⟩ <;> decide +kernel

/-- `c50_accepts`, `c49_words`, `c50_panics` and `c55_text` applied to a table with two lines. -/
example (e : Embeddings Str SimpleVocab (NdArray F32) F32) :=
  c50_accepts (some (2, 1)) (show ShapeFits (some (2, 1)) from ⟨by decide, by decide⟩) false
    (utf8 "2 1\na 1\nb 2".toList) 4 [utf8 "a 1".toList, utf8 "b 2".toList]
    ⟨by decide, .inr ⟨[utf8 "a 1".toList], utf8 "b 2".toList, rfl, by decide, by decide +kernel⟩⟩ e
example := c49_words (T := Str) (F := F32) none trivial false (utf8 "a 1\nb 2".toList) 0
  ⟨none, ⟨⟨1, [[1], [2]]⟩⟩, ⟨indexMap [['a'], ['b']], [['a'], ['b']]⟩, none⟩ (by decide +kernel)
example := c50_panics (T := Str) (F := F32) none trivial false (utf8 "a 1\na 2\n".toList) 0
  [utf8 "a 1".toList, utf8 "a 2".toList] ⟨by decide, .inl (by decide +kernel)⟩

/-- A written table without words cannot be read back. -/
example : let e : Embeddings Str SimpleVocab (NdArray F32) F32 := ⟨none, ⟨⟨2, []⟩⟩, ⟨indexMap [], []⟩, none⟩
    (Embeddings.readTextRaw false (e.writeText false).bytes 0 : Res (Embeddings Str SimpleVocab (NdArray F32) F32)) =
      .panic := by
  decide +kernel

/-! ## C55: strict and lossy readers -/

/-- **C55** (tokens): on valid UTF-8 both decoders agree; the lossy one never fails. -/
theorem c55_decode (bs : Bytes) :
    (∃ s, decodeToken true bs = .ok s) ∧
    ((∃ s, utf8 s = bs) → decodeToken true bs = decodeToken false bs) ∧
    ((∀ s, utf8 s ≠ bs) → decodeToken false bs = .err .format) := by
  refine ⟨⟨_, rfl⟩, ?_, fun h => ((c54_decode bs).2 h).1⟩
  rintro ⟨s, rfl⟩
  rw [decodeToken_utf8, decodeToken_utf8]

theorem decodeToken_agree (bs : Bytes) :
    decodeToken false bs = decodeToken true bs ∨ ((∀ s, utf8 s ≠ bs) ∧ decodeToken false bs = .err .format) := by
  by_cases h : ∃ s, utf8 s = bs
  · left; exact ((c55_decode bs).2.1 h).symm
  · right
    have h' : ∀ s, utf8 s ≠ bs := fun s hs => h ⟨s, hs⟩
    exact ⟨h', (c55_decode bs).2.2 h'⟩

/-- **C55** (text). The two readers agree unless some line is not valid UTF-8, and then the strict reader returns
a format error. -/
theorem c55_text {T F : Type} [FloatText F] (shape : Option (Nat × Nat)) (d : Bytes) (pos : Nat)
    (lines : List Bytes) (hl : IsLines (d.drop pos) lines) :
    (Embeddings.readEmbeds shape false d pos : Res (Embeddings T SimpleVocab (NdArray F) F)) =
      Embeddings.readEmbeds shape true d pos ∨
    (∃ l ∈ lines, ∀ s, utf8 s ≠ l) ∧
      (Embeddings.readEmbeds shape false d pos : Res (Embeddings T SimpleVocab (NdArray F) F)) = .err .format := by
  obtain rfl := hl.eq
  by_cases hall : ∀ l ∈ textLines (d.drop pos), ∃ s, utf8 s = l
  · left
    have : (textLines (d.drop pos)).mapM (Embeddings.readTextLine (F := F) false) =
        (textLines (d.drop pos)).mapM (Embeddings.readTextLine true) := by
      refine Res.mapM_congr' fun l hl => ?_
      unfold Embeddings.readTextLine
      rw [(c55_decode l).2.1 (hall l hl)]
    unfold Embeddings.readEmbeds
    rw [this]
  · simp only [Classical.not_forall, not_exists] at hall
    obtain ⟨l, hl, hno⟩ := hall
    cases hal : Embeddings.allocTable shape with
    | ok u =>
      right
      refine ⟨⟨l, hl, hno⟩, ?_⟩
      unfold Embeddings.readEmbeds
      rw [hal, Res.ok_bind]
      rcases mapM_outcome (readTextLine_outcome (F := F) false) (textLines (d.drop pos)) with ⟨-, h⟩ | ⟨h, -⟩
      · obtain ⟨r, hr⟩ := h l hl
        obtain ⟨s, ps, hs, -⟩ := readTextLine_iff.mp hr
        rw [(c55_decode l).2.2 hno] at hs
        cases hs
      · rw [h]; rfl
    | err x => left; unfold Embeddings.readEmbeds; rw [hal]; rfl
    | panic => left; unfold Embeddings.readEmbeds; rw [hal]; rfl

/-- **C55** (text with dimensions line). -/
theorem c55_text_dims {T F : Type} [FloatText F] (d : Bytes) (pos : Nat) :
    (Embeddings.readTextDimsRaw false d pos : Res (Embeddings T SimpleVocab (NdArray F) F)) =
      Embeddings.readTextDimsRaw true d pos ∨
    (∃ p lines, pos ≤ p ∧ IsLines (d.drop p) lines ∧ ∃ l ∈ lines, ∀ s, utf8 s ≠ l) ∧
      (Embeddings.readTextDimsRaw false d pos : Res (Embeddings T SimpleVocab (NdArray F) F)) = .err .format := by
  have hpos : ∀ delim p n q, readNumber delim d p = .ok (n, q) → p ≤ q := by
    intro delim p n q h
    unfold readNumber readToken readUntil at h
    simp only [bind_apply] at h
    obtain ⟨⟨s, q1⟩, h1, h⟩ := Res.bind_eq_ok.mp h
    obtain ⟨_, _, h1⟩ := Res.map_eq_ok.mp h1
    obtain ⟨_, _, h⟩ := Res.map_eq_ok.mp h
    have e1 := (Prod.mk.inj h1).2
    have e2 := (Prod.mk.inj h).2
    dsimp only at e2
    omega
  unfold Embeddings.readTextDimsRaw
  cases h1 : readNumber 32 d pos with
  | err x => left; rfl
  | panic => left; rfl
  | ok r1 =>
    obtain ⟨n, p1⟩ := r1
    simp only [Res.ok_bind]
    cases h2 : readNumber 10 d p1 with
    | err x => left; rfl
    | panic => left; rfl
    | ok r2 =>
      obtain ⟨k, p2⟩ := r2
      simp only [Res.ok_bind]
      have := hpos _ _ _ _ h1
      have := hpos _ _ _ _ h2
      rcases c55_text (T := T) (F := F) (some (n, k)) d p2 _ (textLines_spec _) with h | ⟨h, h'⟩
      · left; exact h
      · right; exact ⟨⟨p2, _, by omega, textLines_spec _, h⟩, h'⟩

theorem replicateM_congr {α : Type} {p q : Rd α} {d : Bytes} {x : Err}
    (h : ∀ i, p d i = q d i ∨ p d i = .err x) (n pos : Nat) :
    replicateM n p d pos = replicateM n q d pos ∨
      (replicateM n p d pos = .err x ∧ ∃ i, p d i ≠ q d i ∧ p d i = .err x) := by
  induction n generalizing pos with
  | zero => left; rfl
  | succ n ih =>
    simp only [replicateM, bind_apply]
    rcases Classical.em (p d pos = q d pos) with hp | hp
    · rw [hp]
      cases hq : q d pos with
      | ok r =>
        simp only [Res.ok_bind]
        rcases ih r.2 with h' | ⟨h', i, hi⟩
        · left; rw [h']
        · right; exact ⟨by rw [h']; rfl, i, hi⟩
      | err y => left; rfl
      | panic => left; rfl
    · right
      have := (h pos).resolve_left hp
      exact ⟨by rw [this]; rfl, pos, hp, this⟩

theorem readToken_apply (delim : UInt8) (lossy : Bool) (d : Bytes) (pos : Nat) :
    readToken delim lossy d pos = (decodeToken lossy (takeThrough delim (d.drop pos)).dropLast).map
      fun s => (s, pos + (takeThrough delim (d.drop pos)).length) := rfl

/-- **C55** (word2vec). The two readers agree unless some token (data up to the next space) is not valid UTF-8, and
then the strict reader returns a format error. -/
theorem c55_word2vec {T F : Type} [Scalar F] [FloatBits F] (d : Bytes) (pos : Nat) :
    (Embeddings.readWord2vecRaw false d pos : Res (Embeddings T SimpleVocab (NdArray F) F × Nat)) =
      Embeddings.readWord2vecRaw true d pos ∨
    (∃ i, ∀ s, utf8 s ≠ (takeThrough 32 (d.drop i)).dropLast) ∧
      (Embeddings.readWord2vecRaw false d pos : Res (Embeddings T SimpleVocab (NdArray F) F × Nat)) = .err .format := by
  have hentry : ∀ k i, Embeddings.readWord2vecEntry (F := F) k false d i = Embeddings.readWord2vecEntry k true d i ∨
      Embeddings.readWord2vecEntry (F := F) k false d i = .err .format := by
    intro k i
    unfold Embeddings.readWord2vecEntry
    simp only [bind_apply, readToken_apply]
    rcases decodeToken_agree (takeThrough 32 (d.drop i)).dropLast with h | ⟨-, h⟩
    · left; rw [h]
    · right; rw [h]; rfl
  have hbad : ∀ k i, Embeddings.readWord2vecEntry (F := F) k false d i ≠ Embeddings.readWord2vecEntry k true d i →
      ∀ s, utf8 s ≠ (takeThrough 32 (d.drop i)).dropLast := by
    intro k i hne s hs
    apply hne
    unfold Embeddings.readWord2vecEntry
    simp only [bind_apply, readToken_apply]
    rw [(c55_decode _).2.1 ⟨s, hs⟩]
  unfold Embeddings.readWord2vecRaw
  simp only [bind_apply]
  cases h1 : readNumber 32 d pos with
  | err x => left; rfl
  | panic => left; rfl
  | ok r1 =>
    simp only [Res.ok_bind]
    cases h2 : readNumber 10 d r1.2 with
    | err x => left; rfl
    | panic => left; rfl
    | ok r2 =>
      simp only [Res.ok_bind]
      cases h3 : allocArray 4 [r1.1, r2.1] d r2.2 with
      | err x => left; rfl
      | panic => left; rfl
      | ok r3 =>
        simp only [Res.ok_bind]
        cases h4 : alloc 24 r1.1 d r3.2 with
        | err x => left; rfl
        | panic => left; rfl
        | ok r4 =>
          simp only [Res.ok_bind]
          rcases replicateM_congr (hentry r2.1) r1.1 r4.2 with h | ⟨h, i, hi, -⟩
          · left; rw [h]
          · right; exact ⟨⟨i, hbad _ i hi⟩, by rw [h]; rfl⟩

/-- Invalid UTF-8: the strict readers report an error, the lossy ones insert replacement characters. -/
example :
    (Embeddings.readTextRaw false [97, 255, 32, 49, 10] 0 : Res (Embeddings Str SimpleVocab (NdArray F32) F32)) =
      .err .format ∧
    (Embeddings.readTextRaw true [97, 255, 32, 49, 10] 0 : Res (Embeddings Str SimpleVocab (NdArray F32) F32)).map
      (·.vocab.words) = .ok [['a', replacementChar]] ∧
    (Embeddings.readWord2vecRaw false [49, 32, 48, 10, 97, 255, 32] 0 :
      Res (Embeddings Str SimpleVocab (NdArray F32) F32 × Nat)) = .err .format ∧
    (Embeddings.readWord2vecRaw true [49, 32, 48, 10, 97, 255, 32] 0 :
      Res (Embeddings Str SimpleVocab (NdArray F32) F32 × Nat)).map (·.1.vocab.words) =
      .ok [['a', replacementChar]] := by
  decide +kernel

/-- `c55_text` applied to the first of them. -/
example := c55_text (T := Str) (F := F32) none [97, 255, 32, 49, 10] 0 [[97, 255, 32, 49]] ⟨by decide, .inl (by decide)⟩

/-- One replacement character per maximal invalid prefix, as in the standard library's documentation. -/
example : utf8Lossy [72, 0xF0, 0x90, 0x80, 87] = ['H', replacementChar, 'W'] ∧
    utf8Lossy [0xE2, 0x82] = [replacementChar] ∧
    utf8Lossy [0xC0, 0xAF] = [replacementChar, replacementChar] ∧
    utf8Lossy [0xED, 0xA0, 0x80] = [replacementChar, replacementChar, replacementChar] ∧
    utf8Lossy [0xE2, 0x82, 0xAC] = ['€'] := by
  decide +kernel

end FF
