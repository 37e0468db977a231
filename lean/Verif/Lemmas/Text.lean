import Verif.Model.Floret
import Verif.Lemmas.ResList

/-!
# Lemmas about text input and output
-/

namespace FF

open Rd

/-! ## Lossy decoding -/

theorem utf8LossyF_eq {fuel : Nat} {bs : Bytes} {s : Str} (h : utf8DecodeF fuel bs = some s) :
    utf8LossyF fuel bs = s := by
  induction fuel generalizing bs s with
  | zero =>
    cases bs with
    | nil => simp [utf8DecodeF] at h; simp [utf8LossyF, h]
    | cons b bs => simp [utf8DecodeF] at h
  | succ fuel ih =>
    cases bs with
    | nil => simp [utf8DecodeF] at h; simp [utf8LossyF, h]
    | cons b bs =>
      simp only [utf8DecodeF] at h
      simp only [utf8LossyF]
      cases hh : utf8Head (b :: bs) with
      | none => simp [hh] at h
      | some c =>
        simp only [hh, Option.map_eq_some_iff] at h
        obtain ⟨t, ht, rfl⟩ := h
        simp only [ih ht]

/-- On valid UTF-8 the lossy decoder is the strict one. -/
theorem utf8Lossy_eq {bs : Bytes} {s : Str} (h : utf8Decode bs = some s) : utf8Lossy bs = s :=
  utf8LossyF_eq h

@[simp] theorem utf8Lossy_utf8 (s : Str) : utf8Lossy (utf8 s) = s := utf8Lossy_eq (utf8Decode_utf8 s)

theorem decodeToken_utf8 (lossy : Bool) (s : Str) : decodeToken lossy (utf8 s) = .ok s := by
  cases lossy <;> simp [decodeToken]

/-! ## Numbers -/

theorem printNatF_ne_nil (f n : Nat) : printNatF (f + 1) n ≠ [] := by simp [printNatF]

theorem digit_toNat (n : Nat) : (Char.ofNat (48 + n % 10)).toNat = 48 + n % 10 := by
  have : n % 10 < 10 := Nat.mod_lt _ (by omega)
  have key : ∀ k < 10, (Char.ofNat (48 + k)).toNat = 48 + k := by decide
  exact key _ this

theorem printNatF_digits (f n : Nat) : ∀ c ∈ printNatF f n, isDigitChar c := by
  induction f generalizing n with
  | zero => simp [printNatF]
  | succ f ih =>
    intro c hc
    simp only [printNatF, List.mem_append, List.mem_singleton] at hc
    rcases hc with hc | rfl
    · split at hc
      · simp at hc
      · exact ih _ c hc
    · simp only [isDigitChar, digit_toNat]
      have : n % 10 < 10 := Nat.mod_lt _ (by omega)
      simp; omega

theorem digitsVal_append (s : Str) (c : Char) : digitsVal (s ++ [c]) = digitsVal s * 10 + (c.toNat - 48) := by
  simp [digitsVal, List.foldl_append]

theorem digitsVal_printNatF (f n : Nat) (h : n < f) : digitsVal (printNatF f n) = n := by
  induction f generalizing n with
  | zero => omega
  | succ f ih =>
    simp only [printNatF]
    rw [digitsVal_append, digit_toNat]
    split
    · simp [digitsVal]; omega
    · rw [ih _ (by omega)]; omega

theorem printNat_digits (n : Nat) : ∀ c ∈ printNat n, isDigitChar c := printNatF_digits _ _
theorem printNat_ne_nil (n : Nat) : printNat n ≠ [] := printNatF_ne_nil _ _

/-- Parsing a printed number gives the number. -/
theorem parseUsize_printNat {n : Nat} (h : n ≤ usizeMax) : parseUsize (printNat n) = some n := by
  have hd := printNat_digits n
  have hne := printNat_ne_nil n
  have hv : digitsVal (printNat n) = n := digitsVal_printNatF _ _ (by omega)
  have hds : stripPlus (printNat n) = printNat n := by
    cases hp : printNat n with
    | nil => rfl
    | cons c t =>
      rw [hp] at hd
      have hc := hd c (by simp)
      simp only [stripPlus]
      rw [if_neg]
      rintro rfl
      exact absurd hc (by decide)
  unfold parseUsize
  simp only [hds]
  rw [if_neg (by
    rintro (h1 | h1)
    · exact hne h1
    · exact h1 (by simpa using hd)), hv, if_pos h]

/-- A digit is not an ASCII space or another given non-digit byte. -/
theorem not_mem_utf8_printNat {n : Nat} {b : UInt8} (hb : b.toNat < 48) : b ∉ utf8 (printNat n) := by
  intro h
  obtain ⟨c, hc, he⟩ := mem_utf8_ascii h (by omega)
  have := printNat_digits n c hc
  simp [isDigitChar] at this
  omega

/-! ## Delimited tokens -/

theorem takeThrough_append {delim : UInt8} {s : Bytes} (h : delim ∉ s) (rest : Bytes) :
    takeThrough delim (s ++ delim :: rest) = s ++ [delim] := by
  induction s with
  | nil => simp [takeThrough]
  | cons b s ih =>
    simp only [List.mem_cons, not_or] at h
    simp only [List.cons_append, takeThrough]
    rw [if_neg (fun he => h.1 he.symm), ih h.2]

theorem takeThrough_none {delim : UInt8} {s : Bytes} (h : delim ∉ s) : takeThrough delim s = s := by
  induction s with
  | nil => rfl
  | cons b s ih =>
    simp only [List.mem_cons, not_or] at h
    simp only [takeThrough]
    rw [if_neg (fun he => h.1 he.symm), ih h.2]

theorem readUntil_readsAt {delim : UInt8} {s : Bytes} (h : delim ∉ s) (off : Nat) :
    ReadsAt (readUntil delim) off (s ++ [delim]) (s ++ [delim]) := by
  intro pre post hp
  subst hp
  simp only [readUntil]
  rw [List.drop_left' rfl, List.append_assoc, List.singleton_append, takeThrough_append h]

/-- Reading a token that was written with its delimiter. -/
theorem readToken_readsAt {delim : UInt8} {s : Str} (lossy : Bool) (h : delim ∉ utf8 s) (off : Nat) :
    ReadsAt (readToken delim lossy) off (utf8 s ++ [delim]) s := by
  unfold readToken
  have := ReadsAt.bind (f := fun buf : Bytes => Rd.lift (decodeToken lossy buf.dropLast)) (b₂ := []) (b := s)
    (readUntil_readsAt h off) (by
      rw [List.dropLast_concat, decodeToken_utf8]
      exact ReadsAt.lift_ok _ _)
  simpa using this

/-- Reading a number that was written with its delimiter. -/
theorem readNumber_readsAt {delim : UInt8} {n : Nat} (h : n ≤ usizeMax) (hd : delim.toNat < 48) (off : Nat) :
    ReadsAt (readNumber delim) off (utf8 (printNat n) ++ [delim]) n := by
  unfold readNumber
  have := ReadsAt.bind (f := fun field => Rd.lift (Res.ofOption .format (parseUsize field))) (b₂ := []) (b := n)
    (readToken_readsAt false (not_mem_utf8_printNat (n := n) hd) off) (by
      rw [parseUsize_printNat h]
      exact ReadsAt.lift_ok _ _)
  simpa using this

/-! ## Splitting -/

theorem splitBy_ne_nil (p : Char → Bool) (s : Str) : splitBy p s ≠ [] := by
  cases s with
  | nil => simp [splitBy]
  | cons c s =>
    simp only [splitBy]
    split
    · simp
    · split <;> simp

theorem splitBy_none {p : Char → Bool} {w : Str} (h : ∀ c ∈ w, p c = false) : splitBy p w = [w] := by
  induction w with
  | nil => rfl
  | cons c w ih =>
    simp only [splitBy, h c (by simp), ih fun x hx => h x (by simp [hx])]
    simp

theorem splitBy_append {p : Char → Bool} {w : Str} (h : ∀ c ∈ w, p c = false) {sep : Char}
    (hs : p sep = true) (rest : Str) : splitBy p (w ++ sep :: rest) = w :: splitBy p rest := by
  induction w with
  | nil => simp [splitBy, hs]
  | cons c w ih =>
    simp only [List.cons_append, splitBy, h c (by simp), ih fun x hx => h x (by simp [hx])]
    simp

/-- A token of a text line: not empty and without ASCII white space. -/
def IsToken (w : Str) : Prop := w ≠ [] ∧ ∀ c ∈ w, isAsciiWs c = false

theorem parts_token {w : Str} (h : IsToken w) : parts w = [w] := by
  simp [parts, splitBy_none h.2, h.1]

theorem parts_cons {w : Str} (h : IsToken w) (rest : Str) : parts (w ++ ' ' :: rest) = w :: parts rest := by
  unfold parts
  rw [splitBy_append h.2 (by decide), List.filter_cons, if_pos (by simpa using h.1)]

theorem parts_nil : parts [] = [] := by simp [parts, splitBy]

theorem dropWhile_none {p : Char → Bool} {w : Str} (h : ∀ c ∈ w, p c = false) : w.dropWhile p = w := by
  cases w with
  | nil => rfl
  | cons c w => simp [List.dropWhile, h c (by simp)]

theorem trimBy_none {p : Char → Bool} {w : Str} (h : ∀ c ∈ w, p c = false) : trimBy p w = w := by
  unfold trimBy
  rw [dropWhile_none h, dropWhile_none (fun c hc => h c (by simpa using hc)), List.reverse_reverse]

/-- The law of printing and parsing for one value. -/
def FloatText.Faithful {F : Type} [FloatText F] (x : F) : Prop :=
  IsToken (FloatText.print x) ∧ FloatText.parse (FloatText.print x) = some x

theorem parts_joinFloats {F : Type} [FloatText F] {v : List F} (h : ∀ x ∈ v, FloatText.Faithful x) :
    parts (Embeddings.joinFloats v) = v.map FloatText.print := by
  induction v with
  | nil => simp [Embeddings.joinFloats, parts_nil]
  | cons x v ih =>
    cases v with
    | nil => simp [Embeddings.joinFloats, parts_token (h x (by simp)).1]
    | cons y v =>
      simp only [Embeddings.joinFloats, List.map_cons]
      rw [parts_cons (h x (by simp)).1, ih fun z hz => h z (by simp [hz])]; simp

theorem mapM_parse_print {F : Type} [FloatText F] {v : List F} (h : ∀ x ∈ v, FloatText.Faithful x) :
    (v.map FloatText.print).mapM (fun p => Res.ofOption Err.format (FloatText.parse (F := F) p)) = .ok v := by
  induction v with
  | nil => rfl
  | cons x v ih =>
    simp only [List.map_cons, List.mapM_cons, (h x (by simp)).2, Res.ofOption_some, Res.ok_bind,
      ih fun z hz => h z (by simp [hz])]
    rfl

theorem joinFloats_noNl {F : Type} [FloatText F] {v : List F} (h : ∀ x ∈ v, FloatText.Faithful x) :
    ∀ c ∈ Embeddings.joinFloats v, c ≠ '\n' := by
  induction v with
  | nil => simp [Embeddings.joinFloats]
  | cons x v ih =>
    have hx : ∀ c ∈ FloatText.print x, c ≠ '\n' := by
      rintro c hc rfl
      exact absurd ((h x (by simp)).1.2 _ hc) (by decide)
    cases v with
    | nil => simpa [Embeddings.joinFloats] using hx
    | cons y v =>
      intro c hc
      simp only [Embeddings.joinFloats, List.mem_append, List.mem_cons] at hc
      rcases hc with hc | rfl | hc
      · exact hx c hc
      · decide
      · exact ih (fun z hz => h z (by simp [hz])) c hc

/-! ## Lines -/

theorem not_mem_utf8_of {s : Str} {b : UInt8} (hb : b.toNat < 128) (h : ∀ c ∈ s, c.toNat ≠ b.toNat) :
    b ∉ utf8 s := by
  intro hm
  obtain ⟨c, hc, he⟩ := mem_utf8_ascii hm hb
  exact h c hc he

theorem rawLines_flatMap {ls : List Bytes} (h : ∀ l ∈ ls, (10 : UInt8) ∉ l) (fuel : Nat) (hf : ls.length < fuel) :
    rawLines fuel (ls.flatMap (· ++ [10])) = ls.map (· ++ [10]) := by
  induction ls generalizing fuel with
  | nil =>
    cases fuel with
    | zero => rfl
    | succ f => simp [rawLines, takeThrough]
  | cons l ls ih =>
    cases fuel with
    | zero => simp at hf
    | succ f =>
      simp only [List.length_cons] at hf
      have ht : takeThrough 10 ((l :: ls).flatMap (· ++ [10])) = l ++ [10] := by
        simp only [List.flatMap_cons, List.append_assoc, List.singleton_append]
        exact takeThrough_append (h l (by simp)) _
      have hd : ((l :: ls).flatMap (· ++ [10])).drop (l ++ [10]).length = ls.flatMap (· ++ [10]) := by
        simp only [List.flatMap_cons]
        exact List.drop_left' rfl
      obtain ⟨b, t, hbt⟩ : ∃ b t, l ++ [(10 : UInt8)] = b :: t := by
        cases l with
        | nil => exact ⟨_, _, rfl⟩
        | cons b t => exact ⟨_, _, rfl⟩
      simp only [rawLines]
      rw [ht, hbt]
      dsimp only
      rw [← hbt, hd, ih (fun x hx => h x (by simp [hx])) f (by omega)]
      simp

theorem length_le_flatMap (ls : List Bytes) : ls.length ≤ (ls.flatMap (· ++ [(10 : UInt8)])).length := by
  induction ls with
  | nil => simp
  | cons l ls ih => simp only [List.flatMap_cons, List.length_append, List.length_cons]; omega

theorem stripLast_append (b : UInt8) (l : Bytes) : stripLast b (l ++ [b]) = l := by
  simp [stripLast]

/-- Lines that were written with a line feed each. -/
theorem textLines_flatMap {ls : List Bytes} (h : ∀ l ∈ ls, (10 : UInt8) ∉ l) :
    textLines (ls.flatMap (· ++ [10])) = ls := by
  unfold textLines
  rw [rawLines_flatMap h _ (by have := length_le_flatMap ls; omega)]
  simp only [List.map_map]
  conv => rhs; rw [← List.map_id ls]
  exact List.map_congr_left fun l _ => stripLast_append 10 l

/-- `BufRead::lines` on lines that were written with a line feed each and do not end in a carriage
return. -/
theorem bufLines_flatMap {ls : List Bytes} (h : ∀ l ∈ ls, (10 : UInt8) ∉ l ∧ l.getLast? ≠ some 13) :
    bufLines (ls.flatMap (· ++ [10])) = ls := by
  unfold bufLines
  rw [rawLines_flatMap (fun l hl => (h l hl).1) _ (by have := length_le_flatMap ls; omega)]
  simp only [List.map_map]
  conv => rhs; rw [← List.map_id ls]
  refine List.map_congr_left fun l hl => ?_
  simp [stripLast, (h l hl).2]

/-! ## Iterating writers -/

namespace Embeddings
variable {T V S F : Type} [Vocab V] [Storage S F] [Scalar F]

/-- The rows a writer writes: words with their stored or unnormalised vectors. -/
def outRow (unnormalize : Bool) (p : Str × List F × F) : Str × List F :=
  (p.1, if unnormalize then intoUnnormalized p.2 else p.2.1)

theorem eachRow_eq {e : Embeddings T V S F} {rs : List (Str × List F × F)} (h : e.iterWithNorms = .ok rs)
    (un : Bool) (f : Str → List F → W) :
    e.eachRow un f = W.each (fun p => f (outRow un p).1 (outRow un p).2) rs := by
  unfold eachRow iterWithNorms at *
  generalize (Vocab.words e.vocab).zipIdx = l at *
  induction l generalizing rs with
  | nil => simp at h; subst h; rfl
  | cons a l ih =>
    simp only [List.mapM_cons] at h
    obtain ⟨p, hp, h⟩ := Res.bind_eq_ok.mp h
    obtain ⟨ps, hps, h⟩ := Res.bind_eq_ok.mp h
    obtain ⟨v, hv, hp⟩ := Res.bind_eq_ok.mp hp
    obtain ⟨n, hn, hp⟩ := Res.bind_eq_ok.mp hp
    cases hp; cases h
    simp only [W.each, ih hps]
    congr 1
    simp only [hv, Res.ok_bind, hn]
    rfl

omit [Scalar F] in
theorem newWithMaybeNorms_eq_ok {m : Option (Metadata T)} {v : V} {s : S} {n : Option (NdNorms F)}
    {e : Embeddings T V S F} :
    newWithMaybeNorms m v s n = .ok e ↔ Vocab.vocabLen v = .ok (shape s).1 ∧ e = ⟨m, s, v, n⟩ := by
  unfold newWithMaybeNorms
  cases hv : Vocab.vocabLen v with
  | ok k =>
    by_cases hk : k = (shape s).1
    · simp [hk, Res.assert, eq_comm]
    · simp [hk, Res.assert]
  | err x => simp
  | panic => simp

/-- Normalisation after reading a table whose vocabulary and matrix fit together. -/
theorem normalizeRead_eq {e : Embeddings T SimpleVocab (NdArray F) F}
    (h : Vocab.vocabLen e.vocab = .ok (shape e.storage).1) :
    normalizeRead e = .ok ⟨none, ⟨⟨e.storage.inner.cols, e.storage.inner.rows.map fun r => (l2Normalize r).1⟩⟩,
      e.vocab, some ⟨e.storage.inner.rows.map fun r => (l2Normalize r).2⟩⟩ := by
  have hl : e.vocab.indices.len = e.storage.inner.rows.length := Res.ok.inj h
  simp [normalizeRead, l2NormalizeArray, new, newWithMaybeNorms, Vocab.wordsLen, Vocab.vocabLen, hl, Storage.shape,
    Mat.dim, Mat.nrows, Res.assert]

end Embeddings

end FF
