import Verif.Model.WriteErrors
import Verif.Props.FastText

/-!
# The errors of failed writes of fastText files (C86)
-/

namespace FF

namespace LW

theorem seq_def (a b : LW) : a ++ b = seq a b := rfl

@[simp] theorem toW_ofW (w : W) : (ofW w).toW = w := by
  obtain ⟨b, s⟩ := w
  simp [ofW, toW, Function.comp_def]

@[simp] theorem toW_append (a b : LW) : (a ++ b).toW = a.toW ++ b.toW := by
  obtain ⟨ab, as⟩ := a
  cases as <;> simp [seq_def, seq, W.seq_def, W.seq, toW]

theorem W_assoc (a b c : W) : a ++ (b ++ c) = a ++ b ++ c := by
  obtain ⟨ab, as⟩ := a
  obtain ⟨bb, bs⟩ := b
  cases as <;> cases bs <;> simp [W.seq_def, W.seq]

theorem toW_each {α : Type} (f : α → LW) (l : List α) : (each f l).toW = W.each (fun a => (f a).toW) l := by
  induction l with
  | nil => rfl
  | cons a l ih => simp [each, W.each, ih]

theorem blocks_append {a b : LW} (h : a.status = .ok ()) : (a ++ b).blocks = a.blocks ++ b.blocks := by
  simp [seq_def, seq, h]

theorem status_append {a b : LW} (h : a.status = .ok ()) : (a ++ b).status = b.status := by
  simp [seq_def, seq, h]

theorem status_each {α : Type} {f : α → LW} (h : ∀ a, (f a).status = .ok ()) (l : List α) :
    (each f l).status = .ok () := by
  induction l with
  | nil => rfl
  | cons a l ih => rw [each, status_append (h a), ih]

theorem blocks_each {α : Type} {f : α → LW} (h : ∀ a, (f a).status = .ok ()) (l : List α) :
    (each f l).blocks = l.flatMap fun a => (f a).blocks := by
  induction l with
  | nil => rfl
  | cons a l ih => rw [each, blocks_append (h a), ih]; rfl

/-- Bytes of a list of blocks. -/
def len (bs : List (Bytes × IoKind)) : Nat := (bs.map fun b => b.1.length).sum

@[simp] theorem len_nil : len [] = 0 := rfl
@[simp] theorem len_cons (x : Bytes) (k : IoKind) (a : List (Bytes × IoKind)) : len ((x, k) :: a) = x.length + len a := by
  simp [len]

@[simp] theorem len_append (a b : List (Bytes × IoKind)) : len (a ++ b) = len a + len b := by simp [len]

theorem fails_append (cap : Nat) (a b : List (Bytes × IoKind)) :
    fails cap (a ++ b) = if len a ≤ cap then fails (cap - len a) b else fails cap a := by
  induction a generalizing cap with
  | nil => simp
  | cons x a ih =>
    obtain ⟨x, k⟩ := x
    simp only [List.cons_append, fails, len_cons]
    by_cases hx : x.length ≤ cap
    · rw [if_pos hx, if_pos hx, ih]
      by_cases hs : len a ≤ cap - x.length
      · rw [if_pos hs, if_pos (by omega)]; congr 1; omega
      · rw [if_neg hs, if_neg (by omega)]
    · rw [if_neg hx, if_neg hx, if_neg (by omega)]

theorem fails_none_iff (cap : Nat) (a : List (Bytes × IoKind)) : fails cap a = none ↔ len a ≤ cap := by
  induction a generalizing cap with
  | nil => simp [fails]
  | cons x a ih =>
    obtain ⟨x, k⟩ := x
    simp only [fails, len_cons]
    by_cases hx : x.length ≤ cap
    · rw [if_pos hx, ih]; omega
    · rw [if_neg hx]; simp; omega

theorem fails_ofW (cap : Nat) (bs : List Bytes) :
    fails cap (bs.map fun b => (b, IoKind.write)) ≠ some .read := by
  induction bs generalizing cap with
  | nil => simp [fails]
  | cons x a ih =>
    simp only [List.map_cons, fails]
    split
    · exact ih _
    · simp

theorem len_map (bs : List Bytes) : len (bs.map fun b => (b, IoKind.write)) = bs.flatten.length := by
  simp [len, List.length_flatten, Function.comp_def]

end LW

open LW

theorem writeFtWordL_toW (w : Str) : (writeFtWordL w).toW = Embeddings.writeFtWord w := by
  rfl

theorem writeFtVocabL_toW (v : FastTextSubwordVocab) : (writeFtVocabL v).toW = Embeddings.writeFtVocab v := by
  unfold writeFtVocabL Embeddings.writeFtVocab
  split
  · simp only [toW_append, toW_ofW, toW_each, writeFtWordL_toW]
  · simp

section
variable {T S F : Type} [Scalar F] [ScalarNat F] [Storage S F] [FloatBits F]

/-- Without the kinds of the errors, the labelled writer is the writer of the model (all theorems about which thus hold for
it as well). -/
theorem c86_erase (e : Embeddings T FastTextSubwordVocab S F) : e.writeFastTextL.toW = e.writeFastText := by
  unfold Embeddings.writeFastTextL Embeddings.writeFastText
  cases h : e.ftConfig with
  | ok c => simp [LW.ofRes, W.ofRes, writeFtVocabL_toW, W_assoc]
  | err x => rfl
  | panic => rfl

theorem status_writeFtWordL (w : Str) : (writeFtWordL w).status = .ok () := rfl

theorem blocks_writeFtWordL (w : Str) : (writeFtWordL w).blocks =
    [(utf8 w, .write), ([0], .write), (leBytes 8 0, .write), ([0], .read)] := rfl

theorem len_writeFtWordL (w : Str) : len (writeFtWordL w).blocks = (utf8 w).length + 10 := by
  simp [blocks_writeFtWordL, len]

theorem fails_word (cap : Nat) (w : Str) :
    fails cap (writeFtWordL w).blocks = some .read ↔ cap = (utf8 w).length + 9 := by
  simp only [blocks_writeFtWordL, fails, List.length_singleton, leBytes_length]
  by_cases h1 : (utf8 w).length ≤ cap
  · rw [if_pos h1]
    by_cases h2 : 1 ≤ cap - (utf8 w).length
    · rw [if_pos h2]
      by_cases h3 : 8 ≤ cap - (utf8 w).length - 1
      · rw [if_pos h3]
        by_cases h4 : 1 ≤ cap - (utf8 w).length - 1 - 8
        · rw [if_pos h4]; simp; omega
        · rw [if_neg h4]; simp; omega
      · rw [if_neg h3]; simp; omega
    · rw [if_neg h2]; simp; omega
  · rw [if_neg h1]; simp; omega

theorem fails_words (cap : Nat) (ws : List Str) :
    fails cap (ws.flatMap fun w => (writeFtWordL w).blocks) = some .read ↔
      ∃ k w, ws[k]? = some w ∧
        cap = ((ws.take k).map fun w => (utf8 w).length + 10).sum + (utf8 w).length + 9 := by
  induction ws generalizing cap with
  | nil => simp [fails]
  | cons x ws ih =>
    rw [List.flatMap_cons, fails_append, len_writeFtWordL]
    by_cases h : (utf8 x).length + 10 ≤ cap
    · rw [if_pos h, ih]
      constructor
      · rintro ⟨k, w, hk, hc⟩
        refine ⟨k + 1, w, by simpa using hk, ?_⟩
        simp only [List.take_succ_cons, List.map_cons, List.sum_cons]; omega
      · rintro ⟨k, w, hk, hc⟩
        cases k with
        | zero =>
          simp only [List.getElem?_cons_zero, Option.some.injEq] at hk
          subst hk; simp at hc; omega
        | succ k =>
          simp only [List.take_succ_cons, List.map_cons, List.sum_cons] at hc
          exact ⟨k, w, by simpa using hk, by omega⟩
    · rw [if_neg h, fails_word]
      constructor
      · intro hc
        exact ⟨0, x, rfl, by simpa using hc⟩
      · rintro ⟨k, w, hk, hc⟩
        cases k with
        | zero =>
          simp only [List.getElem?_cons_zero, Option.some.injEq] at hk
          subst hk; simpa using hc
        | succ k =>
          simp only [List.take_succ_cons, List.map_cons, List.sum_cons] at hc
          omega

/-- **C86** (part). When the fastText writer is run on a sink that fails after `cap` bytes, the failure is reported as a
*read* error exactly if the byte that could not be written is the entry type of a word, i.e. for `cap` = 92 (header,
configuration, vocabulary sizes) plus the entries of the words before it (each 10 bytes and the word) plus the word itself
and 9 bytes; in all other cases in which not everything fits, it is reported as a write error. Missing: write errors in all
cases (`c86_false`). -/
theorem c86_partial (e : Embeddings T FastTextSubwordVocab S F) (c : FtConfig) (hc : e.ftConfig = .ok c)
    (hw : Vocab.wordsLen e.vocab < 2 ^ 32) (cap : Nat) :
    (e.writeFastTextL.failure cap = none ↔ e.writeFastText.bytes.length ≤ cap) ∧
    (e.writeFastTextL.failure cap = some .read ↔
      ∃ k w, e.vocab.words[k]? = some w ∧
        cap = 92 + ((e.vocab.words.take k).map fun w => (utf8 w).length + 10).sum + (utf8 w).length + 9) := by
  have hlen : ∀ w : LW, len w.blocks = w.toW.bytes.length := fun w => by
    simp [len, toW, W.bytes, List.length_flatten, Function.comp_def]
  refine ⟨by rw [LW.failure, fails_none_iff, hlen, c86_erase], ?_⟩
  have hwl := hw
  have hb : e.writeFastTextL.blocks =
      ((W.u32 fastTextMagic ++ W.u32 fastTextVersion ++ writeFtConfig c ++ (W.u32 (Vocab.wordsLen e.vocab) ++
          W.u32 (Vocab.wordsLen e.vocab) ++ W.u32 0 ++ W.u64 0 ++ W.u64 (2 ^ 64 - 1))).blocks.map fun b => (b, IoKind.write)) ++
        ((e.vocab.words.flatMap fun w => (writeFtWordL w).blocks) ++
          ((W.emit [0] ++ e.writeFtEmbeddings).blocks.map fun b => (b, IoKind.write))) := by
    unfold Embeddings.writeFastTextL writeFtVocabL
    rw [hc, if_pos hwl]
    simp only [LW.ofRes]
    rw [blocks_append, blocks_append, blocks_append, blocks_each status_writeFtWordL]
    · simp [ofW, W.seq_def, W.seq, W.u32, W.u64, W.emit, writeFtConfig]
    · rfl
    · rfl
    · rw [status_append rfl, status_append rfl, status_each status_writeFtWordL]
  have hl : len ((W.u32 fastTextMagic ++ W.u32 fastTextVersion ++ writeFtConfig c ++ (W.u32 (Vocab.wordsLen e.vocab) ++
          W.u32 (Vocab.wordsLen e.vocab) ++ W.u32 0 ++ W.u64 0 ++ W.u64 (2 ^ 64 - 1))).blocks.map fun b => (b, IoKind.write)) = 92 := by
    simp [W.seq_def, W.seq, W.u32, W.u64, W.emit, writeFtConfig]
  rw [LW.failure, hb, fails_append, hl]
  by_cases h : 92 ≤ cap
  · rw [if_pos h, fails_append]
    split
    · rename_i hle
      refine ⟨fun hh => absurd hh (fails_ofW _ _), ?_⟩
      rintro ⟨k, w, hk, hcap⟩
      have := (fails_words (cap - 92) e.vocab.words).mpr ⟨k, w, hk, by omega⟩
      rw [(fails_none_iff _ _).mpr hle] at this
      cases this
    · rw [fails_words]
      constructor <;> rintro ⟨k, w, hk, hcap⟩ <;> exact ⟨k, w, hk, by omega⟩
  · rw [if_neg h]
    refine ⟨fun hh => absurd hh (fails_ofW _ _), ?_⟩
    rintro ⟨k, w, hk, hcap⟩
    omega

end

/-! ## Examples -/

attribute [local instance] exampleScalar exampleScalarNat

/-- C86 fails. Witness: embeddings with the word "a", on a sink that accepts the first 102 bytes: the entry type of the word
cannot be written. -/
theorem c86_false :
    ¬ ∀ (e : Embeddings FtConfig FastTextSubwordVocab (NdArray F32) F32) (cap : Nat) (k : IoKind),
      e.writeFastTextL.failure cap = some k → k = .write := by
  intro h
  have := h ⟨none, ⟨⟨2, [[1, 2], [3, 4]]⟩⟩, ⟨['<'], ['>'], ⟨1⟩, indexMap [['a']], [['a']], 3, 6⟩, some ⟨[5]⟩⟩ 102 .read
    (by rw [(c86_partial _ _ rfl (by decide) _).2]; exact ⟨0, ['a'], rfl, by decide⟩)
  cases this

/-- The hypotheses of `c86_partial` for these embeddings. -/
example : ∃ c, Embeddings.ftConfig (⟨none, ⟨⟨2, [[1, 2], [3, 4]]⟩⟩, ⟨['<'], ['>'], ⟨1⟩, indexMap [['a']], [['a']], 3, 6⟩,
    some ⟨[5]⟩⟩ : Embeddings FtConfig FastTextSubwordVocab (NdArray F32) F32) = .ok c ∧ c.bucket = 1 ∧ c.dims = 2 :=
  ⟨_, rfl, rfl, rfl⟩

end FF
