import Verif.Props.Convert

/-!
# C48: word2vec files whose first line promises zero components
-/

namespace FF

open Rd Embeddings

/-- Specification: the token `t` that ends with a space is at `p`, and `q` is behind the space; or there is no space any
more, and the token is everything up to the end but the last byte. -/
def W2vToken (d : Bytes) (p : Nat) (t : Bytes) (q : Nat) : Prop :=
  32 ∉ t ∧ (∃ rest, d.drop p = t ++ 32 :: rest) ∧ q = p + t.length + 1 ∨
    32 ∉ d.drop p ∧ t = (d.drop p).dropLast ∧ q = p + (d.drop p).length

/-- Specification: tokens one after another. -/
def W2vTokens (d : Bytes) : Nat → List Bytes → Nat → Prop
  | p, [], q => q = p
  | p, t :: ts, q => ∃ p', W2vToken d p t p' ∧ W2vTokens d p' ts q

theorem exists_token (d : Bytes) (p : Nat) : ∃ t q, W2vToken d p t q := by
  by_cases h : 32 ∈ d.drop p
  · obtain ⟨s, rest, h1, h2⟩ := List.eq_append_cons_of_mem h
    exact ⟨s, _, .inl ⟨h2, ⟨rest, h1⟩, rfl⟩⟩
  · exact ⟨_, _, .inr ⟨h, rfl, rfl⟩⟩

theorem W2vToken.readToken {d t : Bytes} {p q : Nat} (h : W2vToken d p t q) (lossy : Bool) :
    readToken 32 lossy d p = (decodeToken lossy t).map (·, q) := by
  unfold FF.readToken
  rw [bind_apply]
  unfold readUntil
  rcases h with ⟨h1, ⟨rest, h2⟩, rfl⟩ | ⟨h1, rfl, rfl⟩
  · rw [h2, takeThrough_append h1]
    simp only [Res.ok_bind, List.dropLast_concat, lift_apply, List.length_append, List.length_singleton, Nat.add_assoc]
  · rw [takeThrough_none h1]
    simp only [Res.ok_bind, lift_apply]

variable {T F : Type} [FloatBits F]

theorem W2vToken.entry {d t : Bytes} {p q : Nat} (h : W2vToken d p t q) (lossy : Bool) :
    readWord2vecEntry (F := F) 0 lossy d p = (decodeToken lossy t).map fun s => ((trimBy isWhitespace s, []), q) := by
  unfold readWord2vecEntry
  rw [bind_apply, h.readToken]
  cases decodeToken lossy t with
  | ok s => rfl
  | err e => rfl
  | panic => rfl

theorem word2vecZero_iff {lossy : Bool} {d : Bytes} {n p q : Nat} {es : List (Str × List F)} :
    replicateM n (readWord2vecEntry (F := F) 0 lossy) d p = .ok (es, q) ↔
      ∃ (ts : List Bytes) (ws : List Str), ts.length = n ∧ W2vTokens d p ts q ∧ ts.map (decodeToken lossy) = ws.map .ok ∧
        es = ws.map fun w => (trimBy isWhitespace w, []) := by
  induction n generalizing p es with
  | zero =>
    constructor
    · intro h
      cases h
      exact ⟨[], [], rfl, rfl, rfl, rfl⟩
    · rintro ⟨ts, ws, h1, h2, h3, rfl⟩
      cases ts with
      | cons _ _ => cases h1
      | nil =>
        cases ws with
        | cons _ _ => cases h3
        | nil => rw [show q = p from h2]; rfl
  | succ n ih =>
    obtain ⟨t, p', ht⟩ := exists_token d p
    unfold replicateM
    rw [Rd.bind_ok]
    constructor
    · rintro ⟨a, p1, h1, h2⟩
      obtain ⟨as, p2, h3, h4⟩ := Rd.bind_ok.mp h2
      rw [ht.entry] at h1
      obtain ⟨s, hs, h5⟩ := Res.map_eq_ok.mp h1
      cases h5
      cases h4
      obtain ⟨ts, ws, h6, h7, h8, rfl⟩ := ih.mp h3
      exact ⟨t :: ts, s :: ws, by simp [h6], ⟨p', ht, h7⟩, by simp [hs, h8], rfl⟩
    · rintro ⟨ts, ws, h1, h2, h3, rfl⟩
      cases ts with
      | nil => cases h1
      | cons t' ts =>
        cases ws with
        | nil => cases h3
        | cons w ws =>
          obtain ⟨p1, h4, h5⟩ := h2
          simp only [List.map_cons, List.cons.injEq] at h3
          refine ⟨_, p1, by rw [h4.entry, h3.1]; rfl, Rd.bind_ok.mpr ⟨_, q, ih.mpr ⟨ts, ws, by simpa using h1, h5, h3.2, rfl⟩, rfl⟩⟩

/-- **C48** (zero components, accepted files). If the first line promises zero components, a word ends with a space, or else
at the end of the file, where its last byte is lost; behind the end all words are empty. The file is accepted exactly if the
words can be decoded and are distinct without the white space around them. Every row is empty. -/
theorem c48_zero (lossy : Bool) (d : Bytes) (pos q : Nat) (e : Embeddings T SimpleVocab (NdArray F) F)
    (hk : e.storage.inner.cols = 0) :
    readWord2vecRaw lossy d pos = .ok (e, q) ↔
      ∃ (n p1 p2 : Nat) (ts : List Bytes) (ws : List Str),
        readNumber 32 d pos = .ok (n, p1) ∧ readNumber 10 d p1 = .ok (0, p2) ∧ 24 * n ≤ isizeMax ∧
        ts.length = n ∧ W2vTokens d p2 ts q ∧ ts.map (decodeToken lossy) = ws.map .ok ∧
        (ws.map (trimBy isWhitespace)).Nodup ∧
        e = ⟨none, ⟨⟨0, List.replicate n []⟩⟩,
          ⟨indexMap (ws.map (trimBy isWhitespace)), ws.map (trimBy isWhitespace)⟩, none⟩ := by
  rw [readWord2vecRaw_ok]
  constructor
  · rintro ⟨n, k, p1, p2, es, h1, h2, h3, h4, h5, h6, rfl⟩
    have hk : k = 0 := hk
    subst hk
    obtain ⟨ts, ws, h7, h8, h9, rfl⟩ := word2vecZero_iff.mp h5
    have hl : ws.length = n := by have := congrArg List.length h9; simp at this; omega
    refine ⟨n, p1, p2, ts, ws, h1, h2, h4, h7, h8, h9, by simpa [List.map_map, Function.comp_def] using h6, ?_⟩
    simp [List.map_map, Function.comp_def, hl, List.map_const']
  · rintro ⟨n, p1, p2, ts, ws, h1, h2, h3, h4, h5, h6, h7, rfl⟩
    have hl : ws.length = n := by have := congrArg List.length h6; simp at this; omega
    refine ⟨n, 0, p1, p2, _, h1, h2, ⟨?_, by omega⟩, h3, word2vecZero_iff.mpr ⟨ts, ws, h4, h5, h6, rfl⟩, ?_, ?_⟩
    · by_cases h0 : n = 0
      · subst h0; simp [isizeMax]
      · simp [h0]; omega
    · simpa [List.map_map, Function.comp_def] using h7
    · simp [List.map_map, Function.comp_def, hl, List.map_const']

theorem exists_tokens (d : Bytes) (p n : Nat) : ∃ ts q, ts.length = n ∧ W2vTokens d p ts q := by
  induction n generalizing p with
  | zero => exact ⟨[], p, rfl, rfl⟩
  | succ n ih =>
    obtain ⟨t, p', ht⟩ := exists_token d p
    obtain ⟨ts, q, h1, h2⟩ := ih p'
    exact ⟨t :: ts, q, by simp [h1], p', ht, h2⟩

/-- **C48** (zero components, panics). The readers panic exactly if the word list cannot be allocated or all words can be
decoded and two of them are equal without the white space around them. -/
theorem c48_zero_panics (lossy : Bool) (d : Bytes) (pos n p1 p2 : Nat) (h1 : readNumber 32 d pos = .ok (n, p1))
    (h2 : readNumber 10 d p1 = .ok (0, p2)) :
    (readWord2vecRaw lossy d pos : Res (Embeddings T SimpleVocab (NdArray F) F × Nat)) = .panic ↔
      isizeMax < 24 * n ∨ ∃ (ts : List Bytes) (ws : List Str) (q : Nat), ts.length = n ∧ W2vTokens d p2 ts q ∧
        ts.map (decodeToken lossy) = ws.map .ok ∧ ¬ (ws.map (trimBy isWhitespace)).Nodup := by
  have halloc : TooBig 4 [n, 0] → isizeMax < 24 * n := by
    unfold TooBig
    have hp : [n, 0].prod = 0 := by simp
    rw [hp]
    by_cases h0 : n = 0
    · subst h0; simp [isizeMax]
    · simp [h0]; omega
  unfold readWord2vecRaw
  rw [bind_apply, h1]
  simp only [Res.ok_bind]
  rw [bind_apply, h2]
  simp only [Res.ok_bind, allocArray_panic, alloc_panic,
    ((readWord2vecEntry_noPanic (F := F) _ _).replicateM _).bind_panic, lift_panic, lift_panic']
  constructor
  · rintro (h | h | ⟨es, q, h3, h⟩)
    · exact .inl (halloc h)
    · exact .inl h
    · right
      obtain ⟨ts, ws, h4, h5, h6, rfl⟩ := word2vecZero_iff.mp h3
      have hl : ws.length = n := by have := congrArg List.length h6; simp at this; omega
      simp only [List.map_map, Function.comp_def] at h
      refine ⟨ts, ws, q, h4, h5, h6, fun hnd => ?_⟩
      rcases h with h | ⟨v, h7, h8⟩
      · rw [SimpleVocab.new_eq_ok.mpr ⟨hnd, rfl⟩] at h
        cases h
      · obtain ⟨-, rfl⟩ := SimpleVocab.new_eq_ok.mp h7
        have hl' : Vocab.vocabLen (⟨indexMap (ws.map (trimBy isWhitespace)), ws.map (trimBy isWhitespace)⟩ : SimpleVocab) =
            .ok (shape (NdArray.mk (⟨0, ws.map fun _ => []⟩ : Mat F))).1 := by
          show Res.ok (indexMap (ws.map (trimBy isWhitespace))).len = .ok (ws.map fun _ => ([] : List F)).length
          rw [(indexMap_len_iff _).mpr hnd]
          simp
        rw [newWithMaybeNorms_eq_ok.mpr ⟨hl', rfl⟩] at h8
        cases h8
  · rintro (h | ⟨ts, ws, q, h4, h5, h6, hnd⟩)
    · exact .inr (.inl h)
    · refine .inr (.inr ⟨_, q, word2vecZero_iff.mpr ⟨ts, ws, h4, h5, h6, rfl⟩, .inl ?_⟩)
      simp only [List.map_map, Function.comp_def]
      exact SimpleVocab.new_panic hnd

theorem word2vecZero_cases (lossy : Bool) (d : Bytes) (n p : Nat) :
    (∃ r, replicateM n (readWord2vecEntry (F := F) 0 lossy) d p = .ok r) ∨
    replicateM n (readWord2vecEntry (F := F) 0 lossy) d p = .err .format := by
  induction n generalizing p with
  | zero => exact .inl ⟨_, rfl⟩
  | succ n ih =>
    obtain ⟨t, p', ht⟩ := exists_token d p
    unfold replicateM
    rw [bind_apply, ht.entry]
    cases hd : decodeToken lossy t with
    | panic =>
      unfold decodeToken at hd
      split at hd
      · cases hd
      · cases h : utf8Decode t <;> rw [h] at hd <;> cases hd
    | err x =>
      right
      unfold decodeToken at hd
      split at hd
      · cases hd
      · cases h : utf8Decode t <;> rw [h] at hd <;> cases hd
        rfl
    | ok s =>
      simp only [Res.map_ok, Res.ok_bind]
      rw [bind_apply]
      rcases ih p' with ⟨r, hr⟩ | hr <;> rw [hr]
      · exact .inl ⟨_, rfl⟩
      · exact .inr rfl

/-- Behind the last space there is one token, and all further ones are empty. -/
theorem W2vTokens.behind {d : Bytes} {p q : Nat} {ts : List Bytes} (h : W2vTokens d p ts q) {i : Nat}
    (hi : (d.drop p).count 32 + 1 ≤ i) (hl : i < ts.length) : ts[i] = [] := by
  induction ts generalizing p i with
  | nil => simp at hl
  | cons t ts ih =>
    obtain ⟨p', ht, h⟩ := h
    obtain ⟨i, rfl⟩ : ∃ j, i = j + 1 := ⟨i - 1, by omega⟩
    simp only [List.getElem_cons_succ]
    simp only [List.length_cons] at hl
    rcases ht with ⟨h1, ⟨rest, h2⟩, rfl⟩ | ⟨h1, -, rfl⟩
    · have h3 : d.drop (p + t.length + 1) = rest := by
        have := congrArg (List.drop (t.length + 1)) h2
        rw [List.drop_drop] at this
        rw [show p + t.length + 1 = p + (t.length + 1) by omega, this]
        simp
      refine ih h ?_ (by omega)
      rw [h3]
      rw [h2] at hi
      simp [List.count_eq_zero_of_not_mem h1] at hi
      omega
    · have h3 : d.drop (p + (d.drop p).length) = [] := by
        rw [List.drop_eq_nil_iff]; simp; omega
      cases i with
      | succ i => exact ih h (by rw [h3]; simp) (by omega)
      | zero =>
        cases ts with
        | nil => simp at hl
        | cons t' ts =>
          obtain ⟨p'', ht', -⟩ := h
          rcases ht' with ⟨-, ⟨rest, h4⟩, -⟩ | ⟨-, h4, -⟩
          · rw [h3] at h4; simp at h4
          · rw [h3] at h4; exact h4

/-- **C48** (zero components, words that are not there): if the first line promises three words more than there are spaces
behind it, the reader makes up empty words and panics, or it reports a word that cannot be decoded. -/
theorem c48_zero_made_up (lossy : Bool) (d : Bytes) (pos n p1 p2 : Nat) (h1 : readNumber 32 d pos = .ok (n, p1))
    (h2 : readNumber 10 d p1 = .ok (0, p2)) (hn : (d.drop p2).count 32 + 3 ≤ n) :
    (readWord2vecRaw lossy d pos : Res (Embeddings T SimpleVocab (NdArray F) F × Nat)) = .panic ∨
    (readWord2vecRaw lossy d pos : Res (Embeddings T SimpleVocab (NdArray F) F × Nat)) = .err .format := by
  by_cases ha : isizeMax < 24 * n
  · exact .inl ((c48_zero_panics lossy d pos n p1 p2 h1 h2).mpr (.inl ha))
  rcases word2vecZero_cases (F := F) lossy d n p2 with ⟨⟨es, q⟩, h⟩ | h
  · left
    obtain ⟨ts, ws, h3, h4, h5, -⟩ := word2vecZero_iff.mp h
    refine (c48_zero_panics lossy d pos n p1 p2 h1 h2).mpr (.inr ⟨ts, ws, q, h3, h4, h5, fun hnd => ?_⟩)
    have hl : ws.length = n := by have := congrArg List.length h5; simp at this; omega
    have he : ∀ i (hi : i < ws.length), (d.drop p2).count 32 + 1 ≤ i → ws[i] = [] := by
      intro i hi hc
      have h6 : ts[i]'(by omega) = [] := h4.behind hc (by omega)
      have h7 := congrArg (·[i]?) h5
      simp only [List.getElem?_map, List.getElem?_eq_getElem (show i < ts.length by omega),
        List.getElem?_eq_getElem hi, h6, Option.map_some, Option.some.injEq] at h7
      have h8 : decodeToken lossy [] = .ok [] := by cases lossy <;> decide
      rw [h8] at h7
      exact (Res.ok.inj h7).symm
    have h9 := (List.pairwise_iff_getElem.mp hnd) ((d.drop p2).count 32 + 1) ((d.drop p2).count 32 + 2)
      (by simp; omega) (by simp; omega) (by omega)
    refine h9 ?_
    rw [List.getElem_map, List.getElem_map, he _ _ (by omega), he _ _ (by omega)]
  · right
    unfold readWord2vecRaw
    rw [bind_apply, h1]
    simp only [Res.ok_bind]
    rw [bind_apply, h2]
    simp only [Res.ok_bind]
    have h3 : allocArray 4 [n, 0] d p2 = .ok ((), p2) := by
      unfold allocArray
      rw [decide_eq_true]
      · rfl
      · by_cases h0 : n = 0
        · subst h0; simp [isizeMax]
        · simp [h0]; omega
    have h4 : alloc 24 n d p2 = .ok ((), p2) := by
      unfold Rd.alloc
      rw [decide_eq_true (by omega)]; rfl
    rw [bind_apply, h3]
    simp only [Res.ok_bind]
    rw [bind_apply, h4]
    simp only [Res.ok_bind]
    rw [bind_apply, h]
    rfl

/-- "2 0", then "a b": the second word loses its only byte. The hypotheses of `c48_zero`. -/
example : ((readWord2vecRaw false (ascii "2 0\na b") 0).map fun r : Embeddings Unit SimpleVocab (NdArray F32) F32 × Nat =>
    (r.1.vocab.words, r.1.storage.inner, r.2)) = .ok ([['a'], []], ⟨0, [[], []]⟩, 7) := by decide +kernel

/-- "3 0": three words are promised and none is there. The hypotheses of `c48_zero_panics` and `c48_zero_made_up`. -/
example := c48_zero_panics (T := Unit) (F := F32) false (ascii "3 0\n") 0 3 2 4 (by decide +kernel) (by decide +kernel)
example := c48_zero_made_up (T := Unit) (F := F32) false (ascii "3 0\n") 0 3 2 4 (by decide +kernel) (by decide +kernel)
  (by decide +kernel)

end FF
