import Verif.Props.Word2vecZero

/-!
# C55: where the strict and the lossy readers differ

The theorems in Props/Text and Props/FastText say that some token is not valid text if the readers differ. Here is where this token
is: it is the first line, or the word of the first record, that is not valid text.
-/

namespace FF

open Rd Embeddings

/-- Specification: `t` is the text at `p` before the next byte `delim`; without such a byte, everything that follows but the last
byte (C54). -/
def TokenFrom (delim : UInt8) (d : Bytes) (p : Nat) (t : Bytes) : Prop :=
  delim ∉ t ∧ (∃ rest, d.drop p = t ++ delim :: rest) ∨ delim ∉ d.drop p ∧ t = (d.drop p).dropLast

theorem tokenFrom_takeThrough (delim : UInt8) (d : Bytes) (p : Nat) :
    TokenFrom delim d p (takeThrough delim (d.drop p)).dropLast := by
  by_cases h : delim ∈ d.drop p
  · obtain ⟨s, rest, h1, h2⟩ := List.eq_append_cons_of_mem h
    left
    rw [h1, takeThrough_append h2, List.dropLast_concat]
    exact ⟨h2, rest, rfl⟩
  · right
    rw [takeThrough_none h]
    exact ⟨h, rfl⟩

theorem replicateM_where {α : Type} {p q : Rd α} {d : Bytes} {x : Err}
    (h : ∀ i, p d i = q d i ∨ p d i = .err x) (n pos : Nat) :
    replicateM n p d pos = replicateM n q d pos ∨
      (replicateM n p d pos = .err x ∧ ∃ m as i, m < n ∧ replicateM m p d pos = .ok (as, i) ∧ p d i ≠ q d i) := by
  induction n generalizing pos with
  | zero => left; rfl
  | succ n ih =>
    simp only [replicateM, bind_apply]
    rcases Classical.em (p d pos = q d pos) with hp | hp
    · rw [hp]
      cases hq : q d pos with
      | ok r =>
        simp only [Res.ok_bind]
        rcases ih r.2 with h' | ⟨h', m, as, i, hm, h1, h2⟩
        · left; rw [h']
        · right
          refine ⟨by rw [h']; rfl, m + 1, r.1 :: as, i, by omega, ?_, h2⟩
          simp only [replicateM, bind_apply]
          rw [hp, hq, Res.ok_bind, h1]
          rfl
      | err y => left; rfl
      | panic => left; rfl
    · right
      have := (h pos).resolve_left hp
      exact ⟨by rw [this]; rfl, 0, [], pos, by omega, rfl, hp⟩

/-- **C55** (text with a first line, where). The readers agree, or one of the lines behind the first is not valid UTF-8 and the strict
reader returns a format error. -/
theorem c55_text_dims_where {T F : Type} [FloatText F] (d : Bytes) (pos : Nat) :
    (Embeddings.readTextDimsRaw false d pos : Res (Embeddings T SimpleVocab (NdArray F) F)) =
      Embeddings.readTextDimsRaw true d pos ∨
    (∃ n k p1 p2 lines, readNumber 32 d pos = .ok (n, p1) ∧ readNumber 10 d p1 = .ok (k, p2) ∧ IsLines (d.drop p2) lines ∧
        ∃ l ∈ lines, ∀ s, utf8 s ≠ l) ∧
      (Embeddings.readTextDimsRaw false d pos : Res (Embeddings T SimpleVocab (NdArray F) F)) = .err .format := by
  unfold Embeddings.readTextDimsRaw
  cases h1 : readNumber 32 d pos with
  | err x => left; rfl
  | panic => left; rfl
  | ok r1 =>
    obtain ⟨n, p1⟩ := r1
    simp only [Res.ok_bind]
    cases h2 : readNumber 10 d p1 with
    | err x => left; rfl
    | panic => left; rfl
    | ok r2 =>
      obtain ⟨k, p2⟩ := r2
      simp only [Res.ok_bind]
      rcases c55_text (T := T) (F := F) (some (n, k)) d p2 _ (textLines_spec _) with h | ⟨h, h'⟩
      · left; exact h
      · right; exact ⟨⟨n, k, p1, p2, _, rfl, h2, textLines_spec _, h⟩, h'⟩

theorem valid_of_decode {bs : Bytes} {s : Str} (h : decodeToken false bs = .ok s) : ∃ s, utf8 s = bs := by
  apply Classical.byContradiction
  intro hn
  rw [(c55_decode bs).2.2 fun s hs => hn ⟨s, hs⟩] at h
  cases h

theorem valid_of_decodes {α : Type} {f : α → Bytes} {l : List α} {ws : List Str}
    (h : l.map (fun a => decodeToken false (f a)) = ws.map .ok) : ∀ a ∈ l, ∃ s, utf8 s = f a := by
  intro a ha
  have : decodeToken false (f a) ∈ ws.map Res.ok := h ▸ List.mem_map_of_mem ha
  obtain ⟨s, -, hs⟩ := List.mem_map.mp this
  exact valid_of_decode hs.symm

/-- **C55** (word2vec, where). The readers agree, or behind the first line there are fewer records than promised whose words are valid
UTF-8, the word that follows them is not, and the strict reader returns a format error. -/
theorem c55_word2vec_where {T F : Type} [Scalar F] [FloatBits F] (d : Bytes) (pos : Nat) :
    (Embeddings.readWord2vecRaw false d pos : Res (Embeddings T SimpleVocab (NdArray F) F × Nat)) =
      Embeddings.readWord2vecRaw true d pos ∨
    (∃ n k p1 p2 m q t, readNumber 32 d pos = .ok (n, p1) ∧ readNumber 10 d p1 = .ok (k, p2) ∧ m < n ∧
        (k ≠ 0 → ∃ rs : List W2vRecord, rs.length = m ∧ (∀ r ∈ rs, 32 ∉ r.word ∧ r.xs.length = k ∧ ∃ s, utf8 s = r.word) ∧
          Took d p2 q (rs.flatMap W2vRecord.bytes)) ∧
        (k = 0 → ∃ ts : List Bytes, ts.length = m ∧ (∀ t ∈ ts, ∃ s, utf8 s = t) ∧ W2vTokens d p2 ts q) ∧
        TokenFrom 32 d q t ∧ ∀ s, utf8 s ≠ t) ∧
      (Embeddings.readWord2vecRaw false d pos : Res (Embeddings T SimpleVocab (NdArray F) F × Nat)) = .err .format := by
  have hentry : ∀ k i, Embeddings.readWord2vecEntry (F := F) k false d i = Embeddings.readWord2vecEntry k true d i ∨
      Embeddings.readWord2vecEntry (F := F) k false d i = .err .format := by
    intro k i
    unfold Embeddings.readWord2vecEntry
    simp only [bind_apply, readToken_apply]
    rcases decodeToken_agree (takeThrough 32 (d.drop i)).dropLast with h | ⟨-, h⟩
    · left; rw [h]
    · right; rw [h]; rfl
  have hbad : ∀ k i, Embeddings.readWord2vecEntry (F := F) k false d i ≠ Embeddings.readWord2vecEntry k true d i →
      ∀ s, utf8 s ≠ (takeThrough 32 (d.drop i)).dropLast := by
    intro k i hne s hs
    apply hne
    unfold Embeddings.readWord2vecEntry
    simp only [bind_apply, readToken_apply]
    rw [(c55_decode _).2.1 ⟨s, hs⟩]
  unfold Embeddings.readWord2vecRaw
  simp only [bind_apply]
  cases h1 : readNumber 32 d pos with
  | err x => left; rfl
  | panic => left; rfl
  | ok r1 =>
    simp only [Res.ok_bind]
    cases h2 : readNumber 10 d r1.2 with
    | err x => left; rfl
    | panic => left; rfl
    | ok r2 =>
      simp only [Res.ok_bind]
      cases h3 : allocArray 4 [r1.1, r2.1] d r2.2 with
      | err x => left; rfl
      | panic => left; rfl
      | ok r3 =>
        have e3 : r3.2 = r2.2 := (Rd.lift_ok.mp h3).2
        simp only [Res.ok_bind]
        cases h4 : alloc 24 r1.1 d r3.2 with
        | err x => left; rfl
        | panic => left; rfl
        | ok r4 =>
          have e4 : r4.2 = r3.2 := (Rd.lift_ok.mp h4).2
          simp only [Res.ok_bind]
          rcases replicateM_where (hentry r2.1) r1.1 r4.2 with h | ⟨h, m, as, i, hm, h5, hi⟩
          · left; rw [h]
          · right
            rw [e4, e3] at h5
            refine ⟨⟨r1.1, r2.1, r1.2, r2.2, m, i, _, rfl, h2, hm, ?_, ?_, tokenFrom_takeThrough 32 d i, hbad _ i hi⟩,
              by rw [h]; rfl⟩
            · intro hk
              obtain ⟨rs, ws, ⟨a1, a2, a3, a4⟩, -⟩ := (word2vecEntries_iff hk).mp h5
              exact ⟨rs, a1, fun r hr => ⟨(a2 r hr).1, (a2 r hr).2, valid_of_decodes a3 r hr⟩, a4⟩
            · intro hk
              rw [hk] at h5
              obtain ⟨ts, ws, a1, a2, a3, -⟩ := word2vecZero_iff.mp h5
              exact ⟨ts, a1, valid_of_decodes a3, a2⟩

/-- **C55** (fastText, where). The readers agree, or the beginning is that of a supported model, there are fewer entries than promised
that are words and valid UTF-8, the word that follows them is not valid UTF-8, and the strict reader returns a format error. -/
theorem c55_fasttext_where {T F : Type} [Scalar F] [ScalarNat F] [ConfigToml T] [FloatBits F] (d : Bytes) (pos : Nat) :
    (Embeddings.readFastText false d pos : Res (Embeddings T FastTextSubwordVocab (NdArray F) F × Nat)) =
      Embeddings.readFastText true d pos ∨
    (∃ (h : FtHead) (es : List FtEntry) (q : Nat) (t : Bytes), h.Fits ∧ h.Supported ∧ es.length < h.size ∧
        (∀ e ∈ es, e.IsWord ∧ ∃ s, utf8 s = e.word) ∧ Took d pos q (h.bytes ++ es.flatMap FtEntry.bytes) ∧
        TokenFrom 0 d q t ∧ ∀ s, utf8 s ≠ t) ∧
      (Embeddings.readFastText false d pos : Res (Embeddings T FastTextSubwordVocab (NdArray F) F × Nat)) =
        .err .format := by
  have hentry : ∀ i, readFtWord false d i = readFtWord true d i ∨ readFtWord false d i = .err .format := by
    intro i
    unfold readFtWord
    simp only [bind_apply, readToken_apply]
    rcases decodeToken_agree (takeThrough 0 (d.drop i)).dropLast with h | ⟨-, h⟩
    · left; rw [h]
    · right; rw [h]; rfl
  have hbad : ∀ i, readFtWord false d i ≠ readFtWord true d i →
      ∀ s, utf8 s ≠ (takeThrough 0 (d.drop i)).dropLast := by
    intro i hne s hs
    apply hne
    unfold readFtWord
    simp only [bind_apply, readToken_apply]
    rw [(c55_decode _).2.1 ⟨s, hs⟩]
  unfold Embeddings.readFastText
  simp only [bind_apply]
  cases h1 : Embeddings.readFtMagic d pos with
  | err x => left; rfl
  | panic => left; rfl
  | ok r1 =>
    simp only [Res.ok_bind]
    cases h2 : readFtConfig d r1.2 with
    | err x => left; rfl
    | panic => left; rfl
    | ok r2 =>
      simp only [Res.ok_bind]
      unfold readFtVocab
      simp only [bind_apply]
      cases h3 : readFtVocabHead d r2.2 with
      | err x => left; rfl
      | panic => left; rfl
      | ok r3 =>
        simp only [Res.ok_bind]
        cases h4 : alloc 24 r3.1 d r3.2 with
        | err x => left; rfl
        | panic => left; rfl
        | ok r4 =>
          have e4 : r4.2 = r3.2 := (Rd.lift_ok.mp h4).2
          simp only [Res.ok_bind]
          rcases replicateM_where hentry r3.1 r4.2 with h | ⟨h, m, as, i, hm, h5, hi⟩
          · left; rw [h]
          · right
            rw [e4] at h5
            obtain ⟨hd, f1, f2, f3, -, f5⟩ := readFtHead_took h1 h2 h3
            obtain ⟨es, g1, g2, g3, g4⟩ := readFtWords_took h5
            refine ⟨⟨hd, es, i, _, f1, f2, by omega, fun e he => ⟨g2 e he, valid_of_decodes g3 e he⟩, f3.append g4,
              tokenFrom_takeThrough 0 d i, hbad i hi⟩, by rw [h]; rfl⟩

/-! ## Examples -/

attribute [local instance] exampleScalar exampleFloatText in
/-- The second alternative of `c55_word2vec_where` occurs: the second word is the byte 255. -/
example : (readWord2vecRaw false (ascii "2 1\na " ++ [1, 0, 0, 0] ++ [255] ++ ascii " " ++ [2, 0, 0, 0]) 0 :
      Res (Embeddings Str SimpleVocab (NdArray F32) F32 × Nat)).map (fun _ => ()) = .err .format ∧
    (readWord2vecRaw true (ascii "2 1\na " ++ [1, 0, 0, 0] ++ [255] ++ ascii " " ++ [2, 0, 0, 0]) 0 :
      Res (Embeddings Str SimpleVocab (NdArray F32) F32 × Nat)).map (fun r => r.1.vocab.words) = .ok [['a'], ['\uFFFD']] := by
  decide +kernel

attribute [local instance] exampleScalar exampleFloatText in
/-- The second alternative of `c55_text_dims_where` occurs. -/
example : (readTextDimsRaw false (ascii "1 1\n" ++ [255] ++ ascii " 1\n") 0 :
      Res (Embeddings Str SimpleVocab (NdArray F32) F32)).map (fun _ => ()) = .err .format ∧
    (readTextDimsRaw true (ascii "1 1\n" ++ [255] ++ ascii " 1\n") 0 :
      Res (Embeddings Str SimpleVocab (NdArray F32) F32)).map (fun r => r.vocab.words) = .ok [['\uFFFD']] := by
  decide +kernel

end FF
