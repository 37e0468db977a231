import Verif.Props.Truncated
import Verif.Props.TextExact

/-!
# C126: the first line of text files with dimensions
-/

namespace FF

open Rd Embeddings

section
variable {T F : Type} [Scalar F] [FloatText F]

theorem parseUsize_no_ascii {s : Str} {n : Nat} (h : parseUsize s = some n) {b : UInt8} (hb : b.toNat < 43) : b ∉ utf8 s := by
  intro hm
  obtain ⟨c, hc, he⟩ := mem_utf8_ascii hm (by omega)
  obtain ⟨ds, hs, hd, -⟩ := (c54_decimal s n).mp h
  have hall := hd.digits.2.1
  rw [List.all_eq_true] at hall
  have hdig : ∀ c ∈ ds, 48 ≤ c.toNat := by
    intro c hc
    have := hall c hc
    simp only [isDigitChar, Bool.and_eq_true, decide_eq_true_eq] at this
    exact this.1
  rcases hs with rfl | rfl
  · have := hdig c hc; omega
  · rcases List.mem_cons.mp hc with rfl | hc
    · have : ('+' : Char).toNat = 43 := by decide
      omega
    · have := hdig c hc; omega

theorem readNumber_field {s : Str} {n : Nat} (h : parseUsize s = some n) {delim : UInt8} (hb : delim.toNat < 43) {d rest : Bytes}
    {pos : Nat} (hd : d.drop pos = utf8 s ++ delim :: rest) :
    ∃ p, readNumber delim d pos = .ok (n, p) ∧ d.drop p = rest := by
  refine ⟨pos + ((utf8 s).length + 1), ?_, ?_⟩
  · rw [readNumber_eq, hd, takeThrough_append (parseUsize_no_ascii h hb), List.dropLast_concat, decodeToken_utf8, Res.ok_bind, h]
    simp [Res.ofOption]
  · rw [← List.drop_drop, hd]
    simp

/-- The specification of the first line: two numbers in decimal, with a space between them and a line feed after them. -/
structure DimsLine (line : Bytes) (n k : Nat) : Prop where
  fields : ∃ a b ds es : Str, line = utf8 a ++ 32 :: (utf8 b ++ [10]) ∧ (a = ds ∨ a = '+' :: ds) ∧ (b = es ∨ b = '+' :: es) ∧
    Decimal ds n ∧ Decimal es k ∧ n < 2 ^ 64 ∧ k < 2 ^ 64

omit [Scalar F] in
theorem readTextDimsRaw_line {d line t : Bytes} {pos n k : Nat} (hl : DimsLine line n k) (hd : d.drop pos = line ++ t)
    (lossy : Bool) :
    (readTextDimsRaw lossy d pos : Res (Embeddings T SimpleVocab (NdArray F) F)) = readEmbeds (some (n, k)) lossy t 0 := by
  obtain ⟨a, b, ds, es, rfl, ha, hb, hds, hes, hn, hk⟩ := hl.fields
  have ha' := (c54_decimal a n).mpr ⟨ds, ha, hds, hn⟩
  have hb' := (c54_decimal b k).mpr ⟨es, hb, hes, hk⟩
  obtain ⟨p, hp, hdp⟩ := readNumber_field ha' (delim := 32) (by decide) (d := d) (pos := pos) (rest := utf8 b ++ 10 :: t)
    (by rw [hd]; simp)
  obtain ⟨q, hq, hdq⟩ := readNumber_field hb' (delim := 10) (by decide) hdp
  unfold readTextDimsRaw
  rw [hp, Res.ok_bind]
  show (readNumber 10 d p >>= _) = _
  rw [hq, Res.ok_bind]
  unfold readEmbeds
  simp only [hdq, List.drop_zero]

/-- The result of the readers from the lines and the shape. -/
def finishTable (rows : List (Str × List F)) (sh : Nat × Nat) : Res (Embeddings T SimpleVocab (NdArray F) F) := do
  let m ← fromShapeVec sh (rows.map (·.2)).flatten
  let vocab ← SimpleVocab.new (rows.map (·.1))
  newWithMaybeNorms none vocab (NdArray.mk m) none

omit [Scalar F] [FloatText F] in
theorem finishTable_shape {rows : List (Str × List F)} {sh : Nat × Nat} {e : Embeddings T SimpleVocab (NdArray F) F}
    (h : finishTable rows sh = .ok e) : e.storage.inner.rows.length = sh.1 ∧ e.storage.inner.cols = sh.2 := by
  unfold finishTable at h
  obtain ⟨m, hm, h⟩ := Res.bind_eq_ok.mp h
  obtain ⟨v, -, h⟩ := Res.bind_eq_ok.mp h
  obtain ⟨-, rfl⟩ := newWithMaybeNorms_eq_ok.mp h
  unfold fromShapeVec at hm
  split at hm
  · cases hm
    exact ⟨Mat.ofFlat_nrows _ _ _, rfl⟩
  · cases hm

omit [Scalar F] in
/-- C126: after a first line with the numbers `n` and `k`, the reader of text files with dimensions accepts what the reader of text
files without dimensions accepts if the table has the promised shape, with the same result, and refuses it otherwise. What the
one refuses the other refuses, and it panics only where the other does. Only for the last three parts the table must be small
enough for the memory. -/
theorem c126_first_line (d line t : Bytes) (pos n k : Nat) (hl : DimsLine line n k) (hd : d.drop pos = line ++ t) (lossy : Bool) :
    (∀ e : Embeddings T SimpleVocab (NdArray F) F, readTextDimsRaw lossy d pos = .ok e →
      readTextRaw lossy t 0 = .ok e ∧ e.storage.inner.rows.length = n ∧ e.storage.inner.cols = k) ∧
    (24 * n < 2 ^ 63 → 4 * (n * k) < 2 ^ 63 →
      (∀ e : Embeddings T SimpleVocab (NdArray F) F, readTextRaw lossy t 0 = .ok e →
        (e.storage.inner.rows.length = n ∧ e.storage.inner.cols = k → readTextDimsRaw lossy d pos = .ok e) ∧
        (¬(e.storage.inner.rows.length = n ∧ e.storage.inner.cols = k) →
          (readTextDimsRaw lossy d pos : Res (Embeddings T SimpleVocab (NdArray F) F)) = .err .format)) ∧
      (∀ x, (readTextRaw lossy t 0 : Res (Embeddings T SimpleVocab (NdArray F) F)) = .err x →
        ∃ y, (readTextDimsRaw lossy d pos : Res (Embeddings T SimpleVocab (NdArray F) F)) = .err y) ∧
      ((readTextDimsRaw lossy d pos : Res (Embeddings T SimpleVocab (NdArray F) F)) = .panic →
        (readTextRaw lossy t 0 : Res (Embeddings T SimpleVocab (NdArray F) F)) = .panic)) := by
  rw [readTextDimsRaw_line hl hd lossy]
  have hraw : (readTextRaw lossy t 0 : Res (Embeddings T SimpleVocab (NdArray F) F)) = (do
      let rows ← (textLines t).mapM (readTextLine (F := F) lossy)
      let sh ← tableShape none rows.length (rows.map (·.2)).flatten.length
      finishTable rows sh) := rfl
  have hdims : (readEmbeds (some (n, k)) lossy t 0 : Res (Embeddings T SimpleVocab (NdArray F) F)) = (do
      allocTable (some (n, k))
      let rows ← (textLines t).mapM (readTextLine (F := F) lossy)
      let sh ← tableShape (some (n, k)) rows.length (rows.map (·.2)).flatten.length
      finishTable rows sh) := rfl
  rw [hraw, hdims]
  generalize (textLines t).mapM (readTextLine (F := F) lossy) = lines
  constructor
  · intro e h
    obtain ⟨-, -, h'⟩ := Res.bind_eq_ok.mp h
    obtain ⟨rows, hrows, h''⟩ := Res.bind_eq_ok.mp h'
    subst hrows
    obtain ⟨sh, hs, h⟩ := Res.bind_eq_ok.mp h''
    have hsh := finishTable_shape h
    unfold tableShape at hs
    dsimp only at hs
    split at hs
    · cases hs
    · rename_i h1
      split at hs
      · cases hs
      · rename_i h2
        split at hs
        · cases hs
        · rename_i h3
          cases hs
          rw [Decidable.not_not] at h1 h3
          refine ⟨?_, hsh⟩
          rw [Res.ok_bind]
          unfold tableShape
          dsimp only
          rw [if_neg (by omega), Res.ok_bind, h1, h3]
          exact h
  · intro hn hnk
    have ha : allocTable (some (n, k)) = .ok () := by
      have hmax : isizeMax = 2 ^ 63 - 1 := rfl
      unfold allocTable Res.assert
      dsimp only
      rw [if_pos (by simp; omega), Res.ok_bind, if_pos (by simp; omega)]
    rw [ha, Res.ok_bind]
    cases lines with
    | err x => exact ⟨by rintro e ⟨⟩, fun y _ => ⟨x, rfl⟩, by rintro ⟨⟩⟩
    | panic => exact ⟨by rintro e ⟨⟩, by rintro x ⟨⟩, fun _ => rfl⟩
    | ok rows =>
      rw [Res.ok_bind, Res.ok_bind]
      by_cases h0 : rows.length = 0
      · have : tableShape none rows.length (rows.map (·.2)).flatten.length = .panic := by
          unfold tableShape
          dsimp only
          rw [if_pos h0]
        rw [this]
        exact ⟨by rintro e ⟨⟩, by rintro x ⟨⟩, fun _ => rfl⟩
      · have hnone : tableShape none rows.length (rows.map (·.2)).flatten.length =
            .ok (rows.length, (rows.map (·.2)).flatten.length / rows.length) := by
          unfold tableShape
          dsimp only
          rw [if_neg h0]
        rw [hnone, Res.ok_bind]
        by_cases h1 : rows.length = n ∧ (rows.map (·.2)).flatten.length / n = k
        · have : tableShape (some (n, k)) rows.length (rows.map (·.2)).flatten.length =
              .ok (rows.length, (rows.map (·.2)).flatten.length / rows.length) := by
            unfold tableShape
            dsimp only
            rw [if_neg (by simp [h1.1]), if_neg (by omega), if_neg (fun h => h h1.2), h1.1, h1.2]
          rw [this, Res.ok_bind]
          refine ⟨fun e he => ⟨fun _ => he, fun hne => ?_⟩, fun x hx => ⟨x, hx⟩, id⟩
          have := finishTable_shape he
          exact absurd ⟨this.1.trans h1.1, this.2.trans (by rw [h1.1]; exact h1.2)⟩ hne
        · have : tableShape (some (n, k)) rows.length (rows.map (·.2)).flatten.length = .err .format := by
            unfold tableShape
            dsimp only
            by_cases h2 : rows.length = n
            · rw [if_neg (by simp [h2]), if_neg (by omega), if_pos fun h => h1 ⟨h2, h⟩]
            · rw [if_pos h2]
          rw [this]
          refine ⟨fun e he => ⟨fun hm => ?_, fun _ => rfl⟩, fun x _ => ⟨_, rfl⟩, by rintro ⟨⟩⟩
          have hsh := finishTable_shape he
          refine absurd ⟨hsh.1.symm.trans hm.1, ?_⟩ h1
          rw [← hm.1, hsh.1]
          exact hsh.2.symm.trans hm.2

omit [FloatText F] in
theorem normalizeRead_shape {e e' : Embeddings T SimpleVocab (NdArray F) F} (h : normalizeRead e = .ok e') :
    e'.storage.inner.rows.length = e.storage.inner.rows.length ∧ e'.storage.inner.cols = e.storage.inner.cols := by
  unfold normalizeRead new at h
  obtain ⟨-, -, h'⟩ := Res.bind_eq_ok.mp h
  obtain ⟨-, rfl⟩ := newWithMaybeNorms_eq_ok.mp h'
  exact ⟨List.length_map .., rfl⟩

/-- C126 for the readers that normalise. -/
theorem c126_norms (d line t : Bytes) (pos n k : Nat) (hl : DimsLine line n k) (hd : d.drop pos = line ++ t) (lossy : Bool) :
    (∀ e : Embeddings T SimpleVocab (NdArray F) F, readTextDims lossy d pos = .ok e →
      readText lossy t 0 = .ok e ∧ e.storage.inner.rows.length = n ∧ e.storage.inner.cols = k) ∧
    (24 * n < 2 ^ 63 → 4 * (n * k) < 2 ^ 63 →
      (∀ e : Embeddings T SimpleVocab (NdArray F) F, readText lossy t 0 = .ok e →
        (e.storage.inner.rows.length = n ∧ e.storage.inner.cols = k → readTextDims lossy d pos = .ok e) ∧
        (¬(e.storage.inner.rows.length = n ∧ e.storage.inner.cols = k) →
          (readTextDims lossy d pos : Res (Embeddings T SimpleVocab (NdArray F) F)) = .err .format)) ∧
      (∀ x, (readText lossy t 0 : Res (Embeddings T SimpleVocab (NdArray F) F)) = .err x →
        ∃ y, (readTextDims lossy d pos : Res (Embeddings T SimpleVocab (NdArray F) F)) = .err y) ∧
      ((readTextDims lossy d pos : Res (Embeddings T SimpleVocab (NdArray F) F)) = .panic →
        (readText lossy t 0 : Res (Embeddings T SimpleVocab (NdArray F) F)) = .panic)) := by
  have h := c126_first_line (T := T) (F := F) d line t pos n k hl hd lossy
  unfold readTextDims readText
  constructor
  · intro e he
    obtain ⟨r, hr, he'⟩ := Res.bind_eq_ok.mp he
    obtain ⟨h1, h2, h3⟩ := h.1 r hr
    have hs := normalizeRead_shape he'
    rw [h1, Res.ok_bind]
    exact ⟨he', hs.1.trans h2, hs.2.trans h3⟩
  · intro hn hnk
    obtain ⟨hok, herr, hpanic⟩ := h.2 hn hnk
    refine ⟨fun e he => ?_, fun x hx => ?_, fun hp => ?_⟩
    · obtain ⟨r, hr, he'⟩ := Res.bind_eq_ok.mp he
      have hs := normalizeRead_shape he'
      obtain ⟨h1, h2⟩ := hok r hr
      rw [hs.1, hs.2]
      refine ⟨fun hm => ?_, fun hm => ?_⟩
      · rw [h1 hm, Res.ok_bind, he']
      · rw [h2 hm]
        rfl
    · cases hr : (readTextRaw lossy t 0 : Res (Embeddings T SimpleVocab (NdArray F) F)) with
      | panic => rw [hr] at hx; cases hx
      | err y =>
        obtain ⟨z, hz⟩ := herr y hr
        exact ⟨z, by rw [hz]; rfl⟩
      | ok r =>
        rw [hr, Res.ok_bind] at hx
        by_cases hm : r.storage.inner.rows.length = n ∧ r.storage.inner.cols = k
        · exact ⟨x, by rw [(hok r hr).1 hm, Res.ok_bind, hx]⟩
        · exact ⟨.format, by rw [(hok r hr).2 hm]; rfl⟩
    · cases hr : (readTextDimsRaw lossy d pos : Res (Embeddings T SimpleVocab (NdArray F) F)) with
      | panic => rw [hpanic hr]; rfl
      | err y => rw [hr] at hp; cases hp
      | ok r =>
        rw [hr, Res.ok_bind] at hp
        rw [(h.1 r hr).1, Res.ok_bind, hp]

/-- C126, the writers: a text file with dimensions is a first line with the numbers of words and components, followed by the text
file without dimensions. -/
theorem c126_written {V S : Type} [Vocab V] [Storage S F] (e : Embeddings T V S F) (un : Bool)
    (h : Vocab.wordsLen e.vocab < 2 ^ 64 ∧ e.dims < 2 ^ 64) :
    ∃ line, DimsLine line (Vocab.wordsLen e.vocab) e.dims ∧ (e.writeTextDims un).bytes = line ++ (e.writeText un).bytes := by
  refine ⟨utf8 (printNat (Vocab.wordsLen e.vocab)) ++ 32 :: (utf8 (printNat e.dims) ++ [10]), ⟨?_⟩, ?_⟩
  · have hmax : usizeMax = 2 ^ 64 - 1 := rfl
    have hd : ∀ n, n < 2 ^ 64 → ∃ ds, (printNat n = ds ∨ printNat n = '+' :: ds) ∧ Decimal ds n := by
      intro n hn
      obtain ⟨ds, h1, h2, -⟩ := (c54_decimal _ n).mp (parseUsize_printNat (n := n) (by omega))
      exact ⟨ds, h1, h2⟩
    obtain ⟨ds, h1, h2⟩ := hd _ h.1
    obtain ⟨es, h3, h4⟩ := hd _ h.2
    exact ⟨_, _, ds, es, rfl, h1, h3, h2, h4, h.1, h.2⟩
  · unfold writeTextDims
    rw [W.bytes_seq (by unfold shapeLine; rfl)]
    simp [shapeLine]

end

/-! ## Examples -/

attribute [local instance] exampleScalar exampleFloatText

theorem exampleDimsLine : DimsLine (ascii "+2 1\n") 2 1 :=
  ⟨['+', '2'], ['1'], ['2'], ['1'], by decide, .inr rfl, .inl rfl, .one 2 (by decide), .one 1 (by decide), by decide, by decide⟩

/-- A file with a plus sign in the first line: the hypotheses of `c126_first_line` and `c126_norms` hold, the table is accepted. -/
example (e : Embeddings Str SimpleVocab (NdArray F32) F32) (h : readTextRaw false (ascii "a 5\nb 7\n") 0 = .ok e) :=
  ((c126_first_line (ascii "+2 1\na 5\nb 7\n") (ascii "+2 1\n") (ascii "a 5\nb 7\n") 0 2 1 exampleDimsLine (by decide) false).2
    (by decide) (by decide)).1 e h
example : (readTextRaw false (ascii "a 5\nb 7\n") 0 : Res (Embeddings Str SimpleVocab (NdArray F32) F32)).map
    (fun e => (e.storage.inner.rows.length, e.storage.inner.cols)) = .ok (2, 1) := by decide +kernel
example := c126_norms (T := Str) (F := F32) (ascii "+2 1\na 5\nb 7\n") (ascii "+2 1\n") (ascii "a 5\nb 7\n") 0 2 1 exampleDimsLine
  (by decide) true
example := c126_written exampleW2v true (by decide)

end FF
