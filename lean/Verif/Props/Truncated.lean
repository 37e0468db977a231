import Verif.Lemmas.LossyPrefix
import Verif.Props.Convert
import Verif.Props.Written

/-!
# Truncated files of other formats (C82)

The format of word2vec has no marks at the end of the file; a reader can notice a missing end only because the first
line says how many words and components there are. In fastText files there is the number of words, and the shape of the
matrix.
-/

namespace FF

open Rd Embeddings

/-! ## Bytes that were read from the beginning of a file -/

theorem Took.of_take {d : Bytes} {m p q : Nat} {bs : Bytes} (h : Took (d.take m) p q bs) : Took d p q bs := by
  obtain ⟨h1, rfl⟩ := h
  refine ⟨?_, rfl⟩
  have h2 : bs <+: d.drop p := by
    rw [List.drop_take] at h1
    exact (List.prefix_append _ _).trans (h1 ▸ List.take_prefix _ _)
  obtain ⟨t, ht⟩ := h2
  rw [← ht, ← List.drop_drop, ← ht, List.drop_left]

theorem Took.end_le {d : Bytes} {m p q : Nat} {bs : Bytes} (h : Took (d.take m) p q bs) (hne : bs ≠ []) : q ≤ m := by
  obtain ⟨h1, rfl⟩ := h
  have h2 := congrArg List.length h1
  have h3 : bs.length ≠ 0 := fun h => hne (List.length_eq_zero_iff.mp h)
  simp only [List.length_append, List.length_drop, List.length_take] at h2
  omega

theorem Took.take {d : Bytes} {m p q : Nat} {bs : Bytes} (h : Took d p q bs) (hm : q ≤ m) : Took (d.take m) p q bs := by
  obtain ⟨h1, rfl⟩ := h
  refine ⟨?_, rfl⟩
  rw [List.drop_take, List.drop_take, h1, List.take_append, List.take_of_length_le (by omega),
    show m - p - bs.length = m - (p + bs.length) by omega]

theorem Took.congr {d d' : Bytes} {p q : Nat} {bs : Bytes} (h : Took d p q bs) (h' : d'.drop p = d.drop p) :
    Took d' p q bs := by
  obtain ⟨h1, rfl⟩ := h
  refine ⟨?_, rfl⟩
  rw [← List.drop_drop, h', h1, List.drop_left, ← List.drop_drop, h1, List.drop_left]

/-! ## fastText -/

section FastText
variable {T F : Type} [Scalar F] [ScalarNat F] [ConfigToml T] [FloatBits F]

theorem FtFile.vocabBytes_ne_nil (f : FtFile) : f.vocabBytes ≠ [] := by
  intro h
  have := congrArg List.length h
  have hlen : ∀ k n, (leBytes k n).length = k := fun k n => by simp
  simp [FtFile.vocabBytes, FtHead.bytes, FtHead.vocabBytes, hlen] at this

theorem FtFile.bytes_ne_nil (f : FtFile) : f.bytes ≠ [] := by
  intro h
  exact f.vocabBytes_ne_nil (List.append_eq_nil_iff.mp h).1

/-- **C82** (fastText). If a fastText file is cut off before the end of the part that is read, the reader returns an
error: it neither panics nor returns embeddings. If the missing part is behind that, the result is the same. -/
theorem c82_fasttext (lossy : Bool) (d : Bytes) (pos q m : Nat) (e : Embeddings T FastTextSubwordVocab (NdArray F) F)
    (h : Embeddings.readFastText lossy d pos = .ok (e, q)) :
    (m < q → ∃ x, (Embeddings.readFastText lossy (d.take m) pos :
      Res (Embeddings T FastTextSubwordVocab (NdArray F) F × Nat)) = .err x) ∧
    (q ≤ m → Embeddings.readFastText lossy (d.take m) pos = .ok (e, q)) := by
  constructor
  · intro hm
    cases hr : (Embeddings.readFastText lossy (d.take m) pos :
        Res (Embeddings T FastTextSubwordVocab (NdArray F) F × Nat)) with
    | err x => exact ⟨x, rfl⟩
    | ok r =>
      exfalso
      obtain ⟨e', q'⟩ := r
      obtain ⟨f, ws, ht, hrest⟩ := (c53_accepts _ _ _ _ _).mp hr
      have h' := (c53_accepts lossy d pos q' e').mpr ⟨f, ws, ht.of_take, hrest⟩
      rw [h] at h'
      cases h'
      have := ht.end_le f.bytes_ne_nil
      omega
    | panic =>
      exfalso
      obtain ⟨f, ws, q', hv, hp⟩ := (c53_panics _ _ _).mp hr
      have h' : (Embeddings.readFastText lossy d pos :
          Res (Embeddings T FastTextSubwordVocab (NdArray F) F × Nat)) = .panic := by
        refine (c53_panics _ _ _).mpr ⟨f, ws, q', hv, ?_⟩
        rcases hp with ⟨ht, h1⟩ | ⟨a, b, ht, h1⟩ | ⟨ht, h1⟩
        · exact .inl ⟨ht.of_take, h1⟩
        · exact .inr (.inl ⟨a, b, ht.of_take, h1⟩)
        · exact .inr (.inr ⟨ht.of_take, h1⟩)
      rw [h] at h'
      cases h'
  · intro hm
    obtain ⟨f, ws, ht, hrest⟩ := (c53_accepts _ _ _ _ _).mp h
    exact (c53_accepts _ _ _ _ _).mpr ⟨f, ws, ht.take hm, hrest⟩

end FastText

/-! ## word2vec -/

section Word2vec
variable {T F : Type} [FloatBits F] [Scalar F]

/-- The beginning of a number without superfluous zeros is such a number, and not greater. -/
theorem printNat_prefix {k : Nat} (hk : 0 < k) {s : Str} (h : s <+: printNat k) (hne : s ≠ []) :
    ∃ j, 0 < j ∧ j ≤ k ∧ s = printNat j := by
  induction k using Nat.strongRecOn generalizing s with
  | _ k ih =>
    by_cases hk10 : k < 10
    · refine ⟨k, hk, Nat.le_refl _, ?_⟩
      have : printNat k = [Char.ofNat (48 + k % 10)] := by
        unfold printNat; rw [printNatF, if_pos hk10]; rfl
      rw [this] at h ⊢
      rcases List.prefix_cons_iff.mp h with h | ⟨t, rfl, ht⟩
      · exact absurd h hne
      · rw [List.prefix_nil.mp ht]
    · have h1 := printNat_snoc (k / 10) (k % 10) (by omega) (by omega)
      rw [show 10 * (k / 10) + k % 10 = k by omega] at h1
      rw [h1] at h
      rcases List.prefix_concat_iff.mp h with h | h
      · exact ⟨k, hk, Nat.le_refl _, by rw [h1, h]⟩
      · obtain ⟨j, a, b, c⟩ := ih (k / 10) (by omega) (by omega) h hne
        exact ⟨j, a, by omega, c⟩

theorem utf8_prefix {s : Str} (hs : ∀ c ∈ s, c.toNat < 128) {bs : Bytes} (h : bs <+: utf8 s) :
    ∃ t, t <+: s ∧ bs = utf8 t := by
  induction s generalizing bs with
  | nil => exact ⟨[], List.prefix_refl _, by simpa using h⟩
  | cons c s ih =>
    rw [utf8_cons, utf8EncodeChar_ascii (hs c (by simp)), List.singleton_append] at h
    rcases List.prefix_cons_iff.mp h with rfl | ⟨t, rfl, ht⟩
    · exact ⟨[], List.nil_prefix, rfl⟩
    · obtain ⟨u, hu, rfl⟩ := ih (fun c hc => hs c (by simp [hc])) ht
      exact ⟨c :: u, by simpa using hu, by rw [utf8_cons, utf8EncodeChar_ascii (hs c (by simp)), List.singleton_append]⟩

theorem utf8_printNat_prefix {k : Nat} {bs : Bytes} (h : bs <+: utf8 (printNat k)) :
    ∃ s, s <+: printNat k ∧ bs = utf8 s := by
  refine utf8_prefix (fun c hc => ?_) h
  have := printNat_digits k c hc
  simp [isDigitChar] at this
  omega

theorem parseUsize_printNat_some {n v : Nat} (h : parseUsize (printNat n) = some v) : v = n ∧ n ≤ usizeMax := by
  by_cases hn : n ≤ usizeMax
  · rw [parseUsize_printNat hn] at h
    exact ⟨by simpa using h.symm, hn⟩
  · exfalso
    have hd := printNat_digits n
    have hv : digitsVal (printNat n) = n := digitsVal_printNatF _ _ (by omega)
    have hds : stripPlus (printNat n) = printNat n := by
      cases hp : printNat n with
      | nil => rfl
      | cons c t =>
        rw [hp] at hd
        have hc := hd c (by simp)
        simp only [stripPlus]
        rw [if_neg]
        rintro rfl
        exact absurd hc (by decide)
    unfold parseUsize at h
    simp only [hds, hv, if_neg hn] at h
    split at h <;> cases h

theorem readNumber_eq (delim : UInt8) (d : Bytes) (pos : Nat) :
    readNumber delim d pos = (do
      let s ← decodeToken false (takeThrough delim (d.drop pos)).dropLast
      let n ← Res.ofOption .format (parseUsize s)
      pure (n, pos + (takeThrough delim (d.drop pos)).length)) := by
  have hu : readUntil delim d pos =
    .ok (takeThrough delim (d.drop pos), pos + (takeThrough delim (d.drop pos)).length) := rfl
  unfold readNumber readToken
  simp only [bind_apply, hu, Res.ok_bind, Rd.lift]
  cases decodeToken false (takeThrough delim (d.drop pos)).dropLast with
  | ok s => cases h : parseUsize s <;> simp [h, Res.map, Res.ofOption]
  | err x => rfl
  | panic => rfl

theorem readNumber_line {delim : UInt8} {d rest : Bytes} {pos n : Nat} (hb : delim.toNat < 48)
    (hd : d.drop pos = utf8 (printNat n) ++ delim :: rest) :
    readNumber delim d pos =
      (Res.ofOption .format (parseUsize (printNat n))).map fun v => (v, pos + (utf8 (printNat n)).length + 1) := by
  rw [readNumber_eq, hd, takeThrough_append (not_mem_utf8_printNat hb), List.dropLast_concat, decodeToken_utf8, Res.ok_bind,
    List.length_append, List.length_singleton, ← Nat.add_assoc]
  cases Res.ofOption Err.format (parseUsize (printNat n)) <;> rfl

theorem readNumber_line_iff {delim : UInt8} {d rest : Bytes} {pos n v p : Nat} (hb : delim.toNat < 48)
    (hd : d.drop pos = utf8 (printNat n) ++ delim :: rest) :
    readNumber delim d pos = .ok (v, p) ↔ v = n ∧ n ≤ usizeMax ∧ p = pos + (utf8 (printNat n)).length + 1 := by
  rw [readNumber_line hb hd]
  constructor
  · intro h
    cases hv : parseUsize (printNat n) with
    | none => rw [hv] at h; cases h
    | some w =>
      rw [hv] at h
      obtain ⟨rfl, hn⟩ := parseUsize_printNat_some hv
      cases h
      exact ⟨rfl, hn, rfl⟩
  · rintro ⟨rfl, hn, rfl⟩
    rw [parseUsize_printNat hn]
    rfl

/-- A number that ends with the file: its last digit is lost. -/
theorem readNumber_cut {delim : UInt8} {d bs : Bytes} {pos n : Nat} (hb : delim.toNat < 48)
    (hd : d.drop pos = bs) (hp : bs <+: utf8 (printNat n)) :
    (∃ x, readNumber delim d pos = .err x) ∨
      ∃ s v, s ≠ [] ∧ s <+: printNat n ∧ parseUsize s = some v ∧ readNumber delim d pos = .ok (v, pos + bs.length) := by
  have hnot : delim ∉ bs := fun h => not_mem_utf8_printNat hb (hp.subset h)
  obtain ⟨s, hs, hs'⟩ := utf8_printNat_prefix ((List.dropLast_prefix bs).trans hp)
  rw [readNumber_eq, hd, takeThrough_none hnot, hs', decodeToken_utf8, Res.ok_bind]
  cases hv : parseUsize s with
  | none => exact .inl ⟨_, rfl⟩
  | some v => exact .inr ⟨s, v, by rintro rfl; simp [parseUsize, stripPlus] at hv, hs, hv, rfl⟩

theorem readNumber_end {delim : UInt8} {d : Bytes} {pos : Nat} (hd : d.drop pos = []) :
    readNumber delim d pos = .err .format := by
  rw [readNumber_eq, hd]
  rfl

/-- With a good first line, either all records are there or the result is an error. -/
theorem readWord2vecRaw_records {lossy : Bool} {d : Bytes} {pos n k p1 p2 : Nat} (h1 : readNumber 32 d pos = .ok (n, p1))
    (h2 : readNumber 10 d p1 = .ok (k, p2)) (hk : k ≠ 0) (ha : W2vAlloc n k) :
    (∃ x, (readWord2vecRaw lossy d pos : Res (Embeddings T SimpleVocab (NdArray F) F × Nat)) = .err x) ∨
      ∃ q rs ws, W2vRecords lossy d n k p2 q rs ws := by
  cases hr : (readWord2vecRaw lossy d pos : Res (Embeddings T SimpleVocab (NdArray F) F × Nat)) with
  | err x => exact .inl ⟨x, rfl⟩
  | ok r =>
    right
    obtain ⟨e, q⟩ := r
    obtain ⟨n', k', p1', p2', es, h1', h2', -, -, h3, -⟩ := readWord2vecRaw_ok.mp hr
    rw [h1] at h1'
    cases h1'
    rw [h2] at h2'
    cases h2'
    obtain ⟨rs, ws, hrec, -⟩ := (word2vecEntries_iff hk).mp h3
    exact ⟨q, rs, ws, hrec⟩
  | panic =>
    right
    have hk' : ∀ n p1 p2, readNumber 32 d pos = .ok (n, p1) → readNumber 10 d p1 ≠ .ok (0, p2) := by
      intro n' p1' p2' h1' h2'
      rw [h1] at h1'
      cases h1'
      rw [h2] at h2'
      cases h2'
      exact hk rfl
    obtain ⟨n', k', p1', p2', h1', h2', h3⟩ := (c48_panics lossy d pos hk').1.mp hr
    rw [h1] at h1'
    cases h1'
    rw [h2] at h2'
    cases h2'
    rcases h3 with h3 | ⟨q, rs, ws, h3, -⟩
    · exact absurd ha h3
    · exact ⟨q, rs, ws, h3⟩

theorem W2vAlloc.mono {n j k : Nat} (hn : n ≠ 0) (h0 : j ≠ 0) (hj : j ≤ k) (h : W2vAlloc n k) : W2vAlloc n j := by
  have hk : k ≠ 0 := by omega
  have : n * j ≤ n * k := Nat.mul_le_mul_left _ hj
  unfold W2vAlloc at h ⊢
  simp [hn, h0, hk] at h ⊢
  omega

theorem W2vRecord.bytes_ne_nil (r : W2vRecord) : r.bytes ≠ [] := by
  simp [W2vRecord.bytes]

theorem W2vRecords.ne_nil {lossy : Bool} {d : Bytes} {n k p q : Nat} {rs : List W2vRecord} {ws : List Str}
    (h : W2vRecords lossy d n k p q rs ws) (hn : n ≠ 0) : rs.flatMap W2vRecord.bytes ≠ [] := by
  obtain ⟨rfl, -⟩ := h
  cases rs with
  | nil => simp at hn
  | cons r rs => simp [W2vRecord.bytes_ne_nil]

/-- **C82** (word2vec). If a word2vec file whose first line has two positive numbers without superfluous zeros is cut off
before the end of the part that is read, the readers return an error: they neither panic nor return embeddings. If the
missing part is behind that, the results are the same. -/
theorem c82_word2vec (lossy : Bool) (d rest : Bytes) (pos q m n k : Nat) (sn sk : Str) (hn : n ≠ 0) (hk : k ≠ 0)
    (hsn : Shown sn n) (hsk : Shown sk k) (hd : d.drop pos = utf8 sn ++ 32 :: (utf8 sk ++ 10 :: rest))
    (e : Embeddings T SimpleVocab (NdArray F) F) (h : readWord2vecRaw lossy d pos = .ok (e, q)) :
    (m < q →
      (∃ x, (readWord2vecRaw lossy (d.take m) pos : Res (Embeddings T SimpleVocab (NdArray F) F × Nat)) = .err x) ∧
      ∃ x, (readWord2vec lossy (d.take m) pos : Res (Embeddings T SimpleVocab (NdArray F) F × Nat)) = .err x) ∧
    (q ≤ m → readWord2vecRaw lossy (d.take m) pos = .ok (e, q) ∧
      (readWord2vec lossy (d.take m) pos : Res (Embeddings T SimpleVocab (NdArray F) F × Nat)) =
        readWord2vec lossy d pos) := by
  obtain rfl := hsn.unique
  obtain rfl := hsk.unique
  -- the numbers of the whole file
  obtain ⟨n', k', p1, p2, es, h1, h2, ha1, ha2, h3, hnd, he⟩ := readWord2vecRaw_ok.mp h
  obtain ⟨rfl, hn64, hp1⟩ := (readNumber_line_iff (by decide) hd).mp h1
  have hd1 : d.drop p1 = utf8 (printNat k) ++ 10 :: rest := by
    rw [hp1, Nat.add_assoc, ← List.drop_drop, hd, ← List.drop_drop, List.drop_left]
    rfl
  obtain ⟨rfl, hk64, hp2⟩ := (readNumber_line_iff (by decide) hd1).mp h2
  have ha : W2vAlloc n' k' := ⟨ha1, ha2⟩
  obtain ⟨rs, ws, hrec, -⟩ := (word2vecEntries_iff hk).mp h3
  have hq : p2 ≤ q := by have := hrec.2.2.2.2; omega
  -- the numbers of the beginning of the file
  have hr1 : p1 ≤ m → readNumber 32 (d.take m) pos = .ok (n', p1) := by
    intro hm
    refine (readNumber_line_iff (rest := (utf8 (printNat k') ++ 10 :: rest).take (m - p1)) (by decide) ?_).mpr
      ⟨rfl, hn64, hp1⟩
    rw [List.drop_take, hd, List.take_append, List.take_of_length_le (by omega),
      show m - pos - (utf8 (printNat n')).length = (m - p1) + 1 by omega, List.take_succ_cons]
  have hr2 : p2 ≤ m → readNumber 10 (d.take m) p1 = .ok (k', p2) := by
    intro hm
    refine (readNumber_line_iff (rest := rest.take (m - p2)) (by decide) ?_).mpr ⟨rfl, hk64, hp2⟩
    rw [List.drop_take, hd1, List.take_append, List.take_of_length_le (by omega),
      show m - p1 - (utf8 (printNat k')).length = (m - p2) + 1 by omega, List.take_succ_cons]
  have hwrap : ∀ {d' : Bytes} {x : Err},
      (readWord2vecRaw lossy d' pos : Res (Embeddings T SimpleVocab (NdArray F) F × Nat)) = .err x →
      (readWord2vec lossy d' pos : Res (Embeddings T SimpleVocab (NdArray F) F × Nat)) = .err x := by
    intro d' x hx
    unfold readWord2vec
    rw [bind_apply, hx]
    rfl
  constructor
  · intro hm
    have key : ∃ x, (readWord2vecRaw lossy (d.take m) pos : Res (Embeddings T SimpleVocab (NdArray F) F × Nat)) = .err x := by
      by_cases hm2 : p2 ≤ m
      · rcases readWord2vecRaw_records (T := T) (F := F) (lossy := lossy) (hr1 (by omega)) (hr2 hm2) hk ha with
          hx | ⟨q', rs', ws', hrec'⟩
        · exact hx
        · exfalso
          have hle := hrec'.2.2.2.end_le (hrec'.ne_nil hn)
          have hrec'' : W2vRecords lossy d n' k' p2 q' rs' ws' :=
            ⟨hrec'.1, hrec'.2.1, hrec'.2.2.1, hrec'.2.2.2.of_take⟩
          have e1 := (word2vecEntries_iff (F := F) hk).mpr ⟨rs, ws, hrec, rfl⟩
          have e2 := (word2vecEntries_iff (F := F) hk).mpr ⟨rs', ws', hrec'', rfl⟩
          rw [e1] at e2
          have := (Prod.mk.inj (Res.ok.inj e2)).2
          omega
      · by_cases hm1 : p1 ≤ m
        · have hdrop : (d.take m).drop p1 = (utf8 (printNat k')).take (m - p1) := by
            rw [List.drop_take, hd1, List.take_append_of_le_length (by omega)]
          rcases readNumber_cut (delim := 10) (by decide) hdrop (List.take_prefix _ _) with ⟨x, hx⟩ | ⟨s, v, hs, hs', hv, hx⟩
          · refine ⟨x, ?_⟩
            unfold readWord2vecRaw
            rw [bind_apply, hr1 hm1, Res.ok_bind, bind_apply, hx]
            rfl
          · obtain ⟨j, hj0, hj, rfl⟩ := printNat_prefix (by omega) hs' hs
            obtain ⟨rfl, -⟩ := parseUsize_printNat_some hv
            rcases readWord2vecRaw_records (T := T) (F := F) (lossy := lossy) (hr1 hm1) hx (by omega)
              (ha.mono hn (by omega) hj) with hx | ⟨q', rs', ws', hrec'⟩
            · exact hx
            · exfalso
              have hne := hrec'.ne_nil hn
              have h5 := hrec'.2.2.2.1
              rw [← List.drop_drop, hdrop, List.drop_length] at h5
              exact hne (List.append_eq_nil_iff.mp h5.symm).1
        · have hdrop : (d.take m).drop pos = (utf8 (printNat n')).take (m - pos) := by
            rw [List.drop_take, hd, List.take_append_of_le_length (by omega)]
          unfold readWord2vecRaw
          rcases readNumber_cut (delim := 32) (by decide) hdrop (List.take_prefix _ _) with ⟨x, hx⟩ | ⟨s, v, -, -, -, hx⟩
          · exact ⟨x, by rw [bind_apply, hx]; rfl⟩
          · refine ⟨.format, ?_⟩
            rw [bind_apply, hx, Res.ok_bind, bind_apply, readNumber_end]
            · rfl
            · rw [← List.drop_drop, hdrop, List.drop_length]
    obtain ⟨x, hx⟩ := key
    exact ⟨⟨x, hx⟩, x, hwrap hx⟩
  · intro hm
    have hrec' : W2vRecords lossy (d.take m) n' k' p2 q rs ws :=
      ⟨hrec.1, hrec.2.1, hrec.2.2.1, hrec.2.2.2.take hm⟩
    have h3' : replicateM n' (readWord2vecEntry (F := F) k' lossy) (d.take m) p2 = .ok (es, q) := by
      have e1 := (word2vecEntries_iff (F := F) hk).mpr ⟨rs, ws, hrec, rfl⟩
      rw [h3] at e1
      rw [(Prod.mk.inj (Res.ok.inj e1)).1]
      exact (word2vecEntries_iff hk).mpr ⟨rs, ws, hrec', rfl⟩
    have h' : readWord2vecRaw lossy (d.take m) pos = .ok (e, q) :=
      readWord2vecRaw_ok.mpr ⟨n', k', p1, p2, es, hr1 (by omega), hr2 (by omega), ha1, ha2, h3', hnd, he⟩
    refine ⟨h', ?_⟩
    unfold readWord2vec
    rw [bind_apply, bind_apply, h, h']
    rfl

end Word2vec

/-! ## Lines and tokens of the beginning of a file -/

theorem IsLines.tail {bs l l2 : Bytes} {ls : List Bytes} (h : IsLines bs (l :: l2 :: ls)) :
    ∃ bs2, bs = l ++ 10 :: bs2 ∧ IsLines bs2 (l2 :: ls) := by
  obtain ⟨h1, h2 | ⟨init, last, h2, h3, h4⟩⟩ := h
  · refine ⟨(l2 :: ls).flatMap (· ++ [10]), by rw [h2]; simp, fun l hl => h1 l (by simp [hl]), .inl rfl⟩
  · cases init with
    | nil => simp at h2
    | cons a init =>
      rw [List.cons_append, List.cons.injEq] at h2
      obtain ⟨rfl, h2⟩ := h2
      exact ⟨init.flatMap (· ++ [10]) ++ last, by rw [h4]; simp, fun l hl => h1 l (List.mem_cons_of_mem _ hl),
        .inr ⟨init, last, h2, h3, rfl⟩⟩

theorem IsLines.single {bs l : Bytes} (h : IsLines bs [l]) : 10 ∉ l ∧ (bs = l ∨ bs = l ++ [10]) := by
  obtain ⟨h1, h2 | ⟨init, last, h2, h3, h4⟩⟩ := h
  · exact ⟨h1 l (by simp), .inr (by rw [h2]; simp)⟩
  · cases init with
    | nil =>
      simp only [List.nil_append, List.cons.injEq, and_true] at h2
      subst h2
      exact ⟨h1 l (by simp), .inl (by simpa using h4)⟩
    | cons a init => simp at h2

/-- The beginning of a file that has as many lines as the file has the same lines, except that the last one can be
incomplete. -/
theorem IsLines.prefix {bs bs' : Bytes} {ls ls' : List Bytes} (h : IsLines bs ls) (h' : IsLines bs' ls')
    (hp : bs' <+: bs) (hlen : ls'.length = ls.length) (hne : ls ≠ []) :
    ∃ init last last', ls = init ++ [last] ∧ ls' = init ++ [last'] ∧ last' <+: last := by
  induction ls generalizing bs bs' ls' with
  | nil => exact absurd rfl hne
  | cons l ls ih =>
    cases ls' with
    | nil => simp at hlen
    | cons l' ls' =>
      cases ls with
      | nil =>
        obtain rfl : ls' = [] := List.length_eq_zero_iff.mp (by simpa using hlen)
        obtain ⟨n1, e1⟩ := h.single
        obtain ⟨n2, e2⟩ := h'.single
        refine ⟨[], l, l', rfl, rfl, ?_⟩
        have hp2 : l' <+: l ++ [10] := by
          refine List.IsPrefix.trans ?_ (hp.trans ?_)
          · rcases e2 with rfl | rfl
            · exact List.prefix_refl _
            · exact List.prefix_append _ _
          · rcases e1 with rfl | rfl
            · exact List.prefix_append _ _
            · exact List.prefix_refl _
        rcases List.prefix_concat_iff.mp hp2 with h | h
        · exact absurd (h ▸ by simp) n2
        · exact h
      | cons l2 ls =>
        cases ls' with
        | nil => simp at hlen
        | cons l2' ls' =>
          obtain ⟨b, rfl, hb⟩ := h.tail
          obtain ⟨b', rfl, hb'⟩ := h'.tail
          have n1 : 10 ∉ l := h.1 l (by simp)
          have n2 : 10 ∉ l' := h'.1 l' (by simp)
          obtain ⟨t, ht⟩ := hp
          have hll : l' = l := by
            have e1 := congrArg (takeThrough 10) ht
            rw [List.append_assoc, List.cons_append, takeThrough_append n2, takeThrough_append n1] at e1
            exact List.append_cancel_right e1
          subst hll
          have hp2 : b' <+: b := by
            rw [List.append_assoc, List.append_cancel_left_eq, List.cons_append, List.cons.injEq] at ht
            exact ⟨t, ht.2⟩
          obtain ⟨init, last, last', a1, a2, a3⟩ := ih hb hb' hp2 (by simpa using hlen) (by simp)
          exact ⟨l' :: init, last, last', by rw [a1]; rfl, by rw [a2]; rfl, a3⟩

theorem utf8_prefix_iff {s t : Str} : utf8 s <+: utf8 t ↔ s <+: t := by
  constructor
  · intro h
    induction s generalizing t with
    | nil => exact List.nil_prefix
    | cons c s ih =>
      cases t with
      | nil =>
        rw [utf8_cons] at h
        have h2 := List.prefix_nil.mp h
        have := congrArg List.length (List.append_eq_nil_iff.mp h2).1
        rw [String.length_utf8EncodeChar] at this
        have := Char.utf8Size_pos c
        simp at *
      | cons c2 t =>
        rw [utf8_cons, utf8_cons] at h
        obtain ⟨r, hr⟩ := h
        have hc := congrArg utf8Head hr
        rw [List.append_assoc, utf8Head_append, utf8Head_append] at hc
        cases hc
        rw [List.append_assoc, List.append_cancel_left_eq] at hr
        obtain ⟨u, rfl⟩ := ih ⟨r, hr⟩
        exact ⟨u, rfl⟩
  · rintro ⟨u, rfl⟩
    exact ⟨utf8 u, by simp⟩

/-- A token of the beginning of a file is that of the file, or it extends to the end. -/
theorem readToken_take {delim : UInt8} {lossy : Bool} {d : Bytes} {m pos p : Nat} {s : Str}
    (h : readToken delim lossy (d.take m) pos = .ok (s, p)) :
    readToken delim lossy d pos = .ok (s, p) ∧ p ≤ m ∨ (d.take m).drop p = [] := by
  rw [readToken_apply, List.drop_take] at h
  obtain ⟨s', hs, h⟩ := Res.map_eq_ok.mp h
  cases h
  rcases takeThrough_cases delim ((d.drop pos).take (m - pos)) with ⟨t, rest, ht, hrest⟩ | hno
  · left
    have hd : d.drop pos = t ++ delim :: (rest ++ (d.drop pos).drop (m - pos)) := by
      have := List.take_append_drop (m - pos) (d.drop pos)
      rw [hrest] at this
      simpa using this.symm
    have hlen := congrArg List.length hrest
    simp only [List.length_take, List.length_append, List.length_cons] at hlen
    rw [hrest, takeThrough_append ht] at hs ⊢
    refine ⟨?_, by simp; omega⟩
    rw [readToken_apply, hd, takeThrough_append ht, hs]
    rfl
  · right
    rw [takeThrough_none hno, ← List.drop_drop, List.drop_take, List.drop_length]

theorem readNumber_take {delim : UInt8} {d : Bytes} {m pos p v : Nat} (h : readNumber delim (d.take m) pos = .ok (v, p)) :
    readNumber delim d pos = .ok (v, p) ∧ p ≤ m ∨ (d.take m).drop p = [] := by
  unfold readNumber at h ⊢
  obtain ⟨s, p', h1, h2⟩ := Rd.bind_ok.mp h
  obtain ⟨h3, rfl⟩ := Rd.lift_ok.mp h2
  rcases readToken_take h1 with ⟨h4, h5⟩ | h4
  · exact .inl ⟨Rd.bind_ok.mpr ⟨s, _, h4, Rd.lift_ok.mpr ⟨h3, rfl⟩⟩, h5⟩
  · exact .inr h4

theorem digitsVal_prefix {s t : Str} (h : s <+: t) : digitsVal s ≤ digitsVal t := by
  obtain ⟨u, rfl⟩ := h
  induction u generalizing s with
  | nil => simp
  | cons c u ih =>
    have h1 := ih (s := s ++ [c])
    rw [digitsVal_append, List.append_assoc, List.singleton_append] at h1
    omega

theorem stripPlus_prefix {s t : Str} (h : s <+: t) : stripPlus s <+: stripPlus t := by
  cases s with
  | nil => exact List.nil_prefix
  | cons c s =>
    obtain ⟨u, rfl⟩ := h
    simp only [stripPlus, List.cons_append]
    split
    · exact List.prefix_append _ _
    · exact ⟨u, rfl⟩

theorem parseUsize_some {s : Str} {n : Nat} (h : parseUsize s = some n) : n = digitsVal (stripPlus s) := by
  unfold parseUsize at h
  dsimp only at h
  split at h
  · cases h
  · split at h
    · exact (Option.some.inj h).symm
    · cases h

/-- The number at the end of a file that is cut off is not greater. -/
theorem readNumber_take_le {delim : UInt8} {d : Bytes} {m pos p v p' v' : Nat} (h : readNumber delim d pos = .ok (v, p))
    (h' : readNumber delim (d.take m) pos = .ok (v', p')) : v' ≤ v := by
  rw [readNumber_eq] at h h'
  obtain ⟨s, hs, h⟩ := Res.bind_eq_ok.mp h
  obtain ⟨n, hn, h⟩ := Res.bind_eq_ok.mp h
  obtain ⟨s', hs', h'⟩ := Res.bind_eq_ok.mp h'
  obtain ⟨n', hn', h'⟩ := Res.bind_eq_ok.mp h'
  cases h
  cases h'
  have g : ∀ {o : Option Nat} {r : Nat}, Res.ofOption Err.format o = .ok r → o = some r := by
    intro o r ho; cases o <;> cases ho; rfl
  have g2 : ∀ {bs : Bytes} {t : Str}, decodeToken false bs = .ok t → utf8 t = bs := by
    intro bs t ho
    unfold decodeToken at ho
    simp only [Bool.false_eq_true, if_false] at ho
    cases hd : utf8Decode bs with
    | none => rw [hd] at ho; cases ho
    | some u => rw [hd] at ho; cases ho; exact utf8_of_utf8Decode hd
  rw [parseUsize_some (g hn), parseUsize_some (g hn')]
  refine digitsVal_prefix (stripPlus_prefix (utf8_prefix_iff.mp ?_))
  rw [g2 hs, g2 hs', List.drop_take]
  rcases takeThrough_cases delim ((d.drop pos).take (m - pos)) with ⟨t, rest, ht, hrest⟩ | hno
  · have hd : d.drop pos = t ++ delim :: (rest ++ (d.drop pos).drop (m - pos)) := by
      have := List.take_append_drop (m - pos) (d.drop pos)
      rw [hrest] at this
      simpa using this.symm
    rw [hrest, hd, takeThrough_append ht, takeThrough_append ht]
    exact List.prefix_refl _
  · rw [takeThrough_none hno]
    rcases takeThrough_cases delim (d.drop pos) with ⟨t, rest, ht, hrest⟩ | hno2
    · rw [hrest] at hno ⊢
      rw [takeThrough_append ht, List.dropLast_concat]
      have h1 : t.length ≥ m - pos := by
        rcases Nat.lt_or_ge t.length (m - pos) with h1 | h1
        · exfalso
          apply hno
          rw [List.take_append, List.take_of_length_le (by omega)]
          obtain ⟨j, hj⟩ : ∃ j, m - pos - t.length = j + 1 := ⟨m - pos - t.length - 1, by omega⟩
          rw [hj]
          simp
        · exact h1
      rw [List.take_append_of_le_length h1]
      exact (List.dropLast_prefix _).trans (List.take_prefix _ _)
    · rw [takeThrough_none hno2]
      have := (List.take_prefix (m - pos) (d.drop pos))
      rw [List.dropLast_eq_take, List.dropLast_eq_take, List.take_take]
      exact List.take_prefix_take_left (by simp; omega)

/-! ## Text with a first line, and floret -/

section Text
variable {T F : Type} [FloatText F] [Scalar F]

omit [Scalar F] in
theorem components_cut {s s0 s' x w w' : Str} {ps ps' : List Str} {xs xs' : List F} (h : TokensOf s (w :: ps))
    (h' : TokensOf s' (w' :: ps')) (hx : ps.map FloatText.parse = xs.map some) (hx' : ps'.map FloatText.parse = xs'.map some)
    (hs' : s' = s0 ++ x) (hws : ∀ c ∈ x, isAsciiWs c = false)
    (hp : s0 <+: s) (hlen : xs'.length = xs.length) (hne : xs ≠ []) : w' = w ∧ xs'.dropLast = xs.dropLast := by
  have e1 : ps.length = xs.length := by simpa using congrArg List.length hx
  have e2 : ps'.length = xs'.length := by simpa using congrArg List.length hx'
  obtain ⟨h1, h2⟩ := tokens_continued h h' hs' hws hp (by omega) (by rintro rfl; exact hne (List.length_eq_zero_iff.mp e1.symm))
  refine ⟨h1, ?_⟩
  have h3 : xs'.dropLast.map some = xs.dropLast.map some := by
    rw [List.map_dropLast, List.map_dropLast, ← hx, ← hx', ← List.map_dropLast, ← List.map_dropLast, h2]
  exact (List.map_inj_right (fun a b => Option.some.inj)).mp h3

omit [FloatText F] [Scalar F] in
theorem flatten_dropLast {init : List (List F)} {r r' : List F} (hne : r ≠ []) (hne' : r' ≠ [])
    (h : r'.dropLast = r.dropLast) : (init ++ [r']).flatten.dropLast = (init ++ [r]).flatten.dropLast := by
  simp only [List.flatten_append, List.flatten_singleton]
  rw [List.dropLast_append_of_ne_nil hne, List.dropLast_append_of_ne_nil hne', h]

omit [Scalar F] in
theorem linesHave_concat {lossy : Bool} {init : List Bytes} {last : Bytes} {rows : List (Str × List F)} :
    LinesHave lossy (init ++ [last]) rows ↔
      ∃ ri r, rows = ri ++ [r] ∧ init.mapM (Embeddings.readTextLine lossy) = .ok ri ∧ LineHas lossy last r := by
  rw [← linesHave_iff, List.mapM_append]
  constructor
  · intro h
    obtain ⟨ri, h1, h⟩ := Res.bind_eq_ok.mp h
    obtain ⟨rl, h2, h⟩ := Res.bind_eq_ok.mp h
    rw [List.mapM_cons] at h2
    obtain ⟨r, h3, h4⟩ := Res.bind_eq_ok.mp h2
    cases h4
    cases h
    exact ⟨ri, r, rfl, h1, readTextLine_iff.mp h3⟩
  · rintro ⟨ri, r, rfl, h1, h2⟩
    rw [h1, Res.ok_bind, List.mapM_cons, readTextLine_iff.mpr h2]
    rfl

/-- What is decoded of the beginning of a line: the beginning of what is decoded of the line, and perhaps `U+FFFD`. -/
theorem decodeToken_prefix {lossy : Bool} {bs bs' : Bytes} {s s' : Str} (h : decodeToken lossy bs = .ok s)
    (h' : decodeToken lossy bs' = .ok s') (hp : bs' <+: bs) :
    ∃ s0 x, s' = s0 ++ x ∧ (∀ c ∈ x, isAsciiWs c = false) ∧ s0 <+: s := by
  cases lossy with
  | false =>
    have g2 : ∀ {bs : Bytes} {t : Str}, decodeToken false bs = .ok t → utf8 t = bs := by
      intro bs t ho
      unfold decodeToken at ho
      simp only [Bool.false_eq_true, if_false] at ho
      cases hd : utf8Decode bs with
      | none => rw [hd] at ho; cases ho
      | some u => rw [hd] at ho; cases ho; exact utf8_of_utf8Decode hd
    exact ⟨s', [], by simp, by simp, utf8_prefix_iff.mp (by rw [g2 h, g2 h']; exact hp)⟩
  | true =>
    rw [c55_lossy] at h
    obtain ⟨s0, t, h1, h2, h3⟩ := h.take bs'.length
    rw [← List.prefix_iff_eq_take.mp hp, ← c55_lossy, h'] at h1
    cases h1
    rcases h3 with rfl | rfl
    · exact ⟨s', [], by simp, by simp, h2⟩
    · exact ⟨s0, _, rfl, by decide, h2⟩

omit [Scalar F] in
theorem rows_cut {lossy : Bool} {bs bs' : Bytes} {lines lines' : List Bytes} {rows rows' : List (Str × List F)} (hl : IsLines bs lines)
    (hr : LinesHave lossy lines rows) (hl' : IsLines bs' lines') (hr' : LinesHave lossy lines' rows') (hp : bs' <+: bs)
    (hlen : rows'.length = rows.length)
    (htotal : (rows'.map (·.2)).flatten.length = (rows.map (·.2)).flatten.length)
    (hne : rows ≠ []) (hlast : ∀ r, rows.getLast? = some r → r.2 ≠ []) :
    rows'.map (·.1) = rows.map (·.1) ∧ (rows'.map (·.2)).flatten.dropLast = (rows.map (·.2)).flatten.dropLast := by
  have hne' : lines ≠ [] := by
    rintro rfl
    exact hne (List.length_eq_zero_iff.mp (by simpa using hr.1.symm))
  obtain ⟨init, last, last', rfl, rfl, hpre⟩ := hl.prefix hl' hp (by rw [hr.1, hr'.1, hlen]) hne'
  obtain ⟨ri, r, rfl, h1, s, ps, hs, ht, hx⟩ := linesHave_concat.mp hr
  obtain ⟨ri', r', rfl, h1', s', ps', hs', ht', hx'⟩ := linesHave_concat.mp hr'
  rw [h1] at h1'
  cases h1'
  have hlen2 : r'.2.length = r.2.length := by simpa using htotal
  have hr0 : r.2 ≠ [] := hlast r (by simp)
  obtain ⟨s0, x, hs0, hx0, hpre0⟩ := decodeToken_prefix hs hs' hpre
  obtain ⟨e1, e2⟩ := components_cut ht ht' hx hx' hs0 hx0 hpre0 hlen2 hr0
  refine ⟨by simp [e1], ?_⟩
  simp only [List.map_append, List.map_cons, List.map_nil]
  exact flatten_dropLast hr0 (by intro h0; rw [h0] at hlen2; exact hr0 (List.length_eq_zero_iff.mp hlen2.symm)) e2

theorem flatten_ofFlat {α : Type} {n k : Nat} {xs : List α} (h : xs.length = n * k) :
    (Mat.ofFlat n k xs).rows.flatten = xs := flatten_chunks h

/-- Two matrices of the same shape with the same components, except perhaps the very last one. -/
def SameUpToLast (m' m : Mat F) : Prop :=
  m'.dim = m.dim ∧ m'.rows.flatten.length = m.rows.flatten.length ∧ m'.rows.flatten.dropLast = m.rows.flatten.dropLast

omit [Scalar F] in
/-- **C82** (text with a first line). If the last line of a text file with a first line has components and the file is
cut off anywhere, then the reader returns an error, or it returns embeddings that differ from those of the whole file in
no more than the last component of the last word. It does not panic. -/
theorem c82_text_dims (lossy : Bool) (d : Bytes) (pos m n k p1 p2 : Nat) (lines : List Bytes) (rows : List (Str × List F))
    (e : Embeddings T SimpleVocab (NdArray F) F) (h : readTextDimsRaw lossy d pos = .ok e)
    (h1 : readNumber 32 d pos = .ok (n, p1)) (h2 : readNumber 10 d p1 = .ok (k, p2))
    (hl : IsLines (d.drop p2) lines) (hr : LinesHave lossy lines rows)
    (hlast : ∀ r, rows.getLast? = some r → r.2 ≠ []) :
    (∃ x, (readTextDimsRaw lossy (d.take m) pos : Res (Embeddings T SimpleVocab (NdArray F) F)) = .err x) ∨
    ∃ e' : Embeddings T SimpleVocab (NdArray F) F, readTextDimsRaw lossy (d.take m) pos = .ok e' ∧
      e'.metadata = e.metadata ∧ e'.vocab = e.vocab ∧ e'.norms = e.norms ∧
      SameUpToLast e'.storage.inner e.storage.inner := by
  obtain ⟨n0, k0, p10, p20, lines0, rows0, g1, g2, ha1, ha2, hl0, hr0, hlen, hn, hnd, htot, he⟩ :=
    (c50_dims_accepts _ _ _ _).mp h
  rw [h1] at g1
  cases g1
  rw [h2] at g2
  cases g2
  obtain rfl := hl.eq.trans hl0.eq.symm
  have : rows0 = rows := by
    have e1 := linesHave_iff.mpr hr
    rw [linesHave_iff.mpr hr0] at e1
    exact Res.ok.inj e1
  subst this
  have hne : rows0 ≠ [] := by rintro rfl; exact hn hlen.symm
  -- what is true of the beginning of the file if it has as many rows
  have key : ∀ {n' k' p1' p2' : Nat} {lines' : List Bytes} {rows' : List (Str × List F)},
      readNumber 32 (d.take m) pos = .ok (n', p1') → readNumber 10 (d.take m) p1' = .ok (k', p2') →
      IsLines ((d.take m).drop p2') lines' → LinesHave lossy lines' rows' → rows'.length = n' → n' ≠ 0 →
      (rows'.map (·.2)).flatten.length = n' * k' →
      n' = n ∧ k' = k ∧ rows'.map (·.1) = rows0.map (·.1) ∧
        (rows'.map (·.2)).flatten.dropLast = (rows0.map (·.2)).flatten.dropLast := by
    intro n' k' p1' p2' lines' rows' a1 a2 a3 a4 a5 a6 a7
    rcases readNumber_take a1 with ⟨b1, -⟩ | b1
    · rw [h1] at b1
      cases b1
      rcases readNumber_take a2 with ⟨b2, -⟩ | b2
      · rw [h2] at b2
        cases b2
        obtain ⟨c1, c2⟩ := rows_cut hl hr a3 a4 (by rw [List.drop_take]; exact List.take_prefix _ _) (by omega)
          (by omega) hne hlast
        exact ⟨rfl, rfl, c1, c2⟩
      · exfalso
        rw [b2] at a3
        have : lines' = [] := a3.eq
        subst this
        have := a4.1
        simp at this
        omega
    · rw [readNumber_end b1] at a2
      cases a2
  cases hc : (readTextDimsRaw lossy (d.take m) pos : Res (Embeddings T SimpleVocab (NdArray F) F)) with
  | err x => exact .inl ⟨x, rfl⟩
  | ok e' =>
    right
    refine ⟨e', rfl, ?_⟩
    obtain ⟨n', k', p1', p2', lines', rows', a1, a2, -, -, a3, a4, a5, a6, -, a7, he'⟩ := (c50_dims_accepts _ _ _ _).mp hc
    obtain ⟨rfl, rfl, c1, c2⟩ := key a1 a2 a3 a4 a5 a6 a7
    subst he he'
    refine ⟨rfl, by rw [c1], rfl, ?_, ?_⟩
    · simp [Mat.dim]
    · dsimp only
      rw [flatten_ofFlat a7, flatten_ofFlat htot]
      exact ⟨by omega, c2⟩
  | panic =>
    exfalso
    obtain ⟨n', k', p1', p2', lines', a1, a2, a3, a4⟩ := (c50_dims_panics _ _ _).mp hc
    have hn' : n' = n := by
      rcases readNumber_take a1 with ⟨b1, -⟩ | b1
      · rw [h1] at b1; cases b1; rfl
      · rw [readNumber_end b1] at a2; cases a2
    have hp1' : p1' = p1 := by
      rcases readNumber_take a1 with ⟨b1, -⟩ | b1
      · rw [h1] at b1; cases b1; rfl
      · rw [readNumber_end b1] at a2; cases a2
    subst hn' hp1'
    have hk := readNumber_take_le h2 a2
    have hmul : n' * k' ≤ n' * k := Nat.mul_le_mul_left _ hk
    rcases a4 with a4 | a4 | ⟨a4, -⟩ | ⟨rows', a4, a5, a6, a7, a8⟩
    · omega
    · omega
    · exact hn a4
    · obtain ⟨-, -, c1, -⟩ := key a1 a2 a3 a4 a5 a6 a7
      rw [c1] at a8
      exact a8 hnd

omit [FloatText F] [Scalar F] in
/-- If only the last component may differ, then all rows but the last are the same. -/
theorem SameUpToLast.rows {m' m : Mat F} (h : SameUpToLast m' m) (hw : m.WF) (hw' : m'.WF) :
    m'.rows.length = m.rows.length ∧ m'.rows.dropLast = m.rows.dropLast := by
  obtain ⟨k, a⟩ := m
  obtain ⟨k', b⟩ := m'
  obtain ⟨h1, h2, h3⟩ := h
  simp only [Mat.dim, Mat.nrows, Prod.mk.injEq] at h1
  obtain ⟨hl, rfl⟩ := h1
  refine ⟨hl, ?_⟩
  have key : ∀ (a b : List (List F)), b.length = a.length → (∀ r ∈ a, r.length = k') → (∀ r ∈ b, r.length = k') →
      b.flatten.dropLast = a.flatten.dropLast → b.dropLast = a.dropLast := by
    intro a
    induction a with
    | nil =>
      intro b hb _ _ _
      rw [List.length_eq_zero_iff.mp hb]
    | cons r a ih =>
      intro b hb ha hb' hd
      cases b with
      | nil => simp at hb
      | cons r' b =>
        have hlen : b.length = a.length := by simpa using hb
        have e1 := ha r (by simp)
        have e2 := hb' r' (by simp)
        cases a with
        | nil =>
          rw [List.length_eq_zero_iff.mp hlen]
          rfl
        | cons s a =>
          cases b with
          | nil => simp at hlen
          | cons s' b =>
            by_cases h0 : k' = 0
            · have hz : ∀ (x : List (List F)), (∀ r ∈ x, r.length = k') → x = List.replicate x.length [] := by
                intro x hx
                exact List.eq_replicate_iff.mpr ⟨rfl, fun r hr => List.length_eq_zero_iff.mp ((hx r hr).trans h0)⟩
              rw [hz _ ha, hz _ hb', hb]
            · have f1 : (s :: a).flatten ≠ [] := by
                have := ha s (by simp)
                rintro h
                simp only [List.flatten_cons, List.append_eq_nil_iff] at h
                rw [h.1] at this
                exact h0 this.symm
              have f2 : (s' :: b).flatten ≠ [] := by
                have := hb' s' (by simp)
                rintro h
                simp only [List.flatten_cons, List.append_eq_nil_iff] at h
                rw [h.1] at this
                exact h0 this.symm
              rw [List.flatten_cons, List.flatten_cons (L := s :: a), List.dropLast_append_of_ne_nil f1,
                List.dropLast_append_of_ne_nil f2] at hd
              obtain ⟨g1, g2⟩ := List.append_inj hd (by omega)
              rw [List.dropLast_cons_cons, List.dropLast_cons_cons, g1,
                ih (s' :: b) hlen (fun r hr => ha r (by simp [hr])) (fun r hr => hb' r (by simp [hr])) g2]
  exact key a b hl hw hw' h3

/-- **C82** (text with a first line, normalised). The readers that normalise return an error, or the same embeddings up to
the last row and its norm. -/
theorem c82_text_dims_normalized (lossy : Bool) (d : Bytes) (pos m n k p1 p2 : Nat) (lines : List Bytes)
    (rows : List (Str × List F)) (e : Embeddings T SimpleVocab (NdArray F) F) (h : readTextDims lossy d pos = .ok e)
    (h1 : readNumber 32 d pos = .ok (n, p1)) (h2 : readNumber 10 d p1 = .ok (k, p2))
    (hl : IsLines (d.drop p2) lines) (hr : LinesHave lossy lines rows)
    (hlast : ∀ r, rows.getLast? = some r → r.2 ≠ []) :
    (∃ x, (readTextDims lossy (d.take m) pos : Res (Embeddings T SimpleVocab (NdArray F) F)) = .err x) ∨
    ∃ e' : Embeddings T SimpleVocab (NdArray F) F, readTextDims lossy (d.take m) pos = .ok e' ∧
      e'.metadata = e.metadata ∧ e'.vocab = e.vocab ∧ e'.dims = e.dims ∧
      e'.storage.inner.rows.length = e.storage.inner.rows.length ∧
      e'.storage.inner.rows.dropLast = e.storage.inner.rows.dropLast ∧
      ∃ ns ns' : List F, e.norms = some ⟨ns⟩ ∧ e'.norms = some ⟨ns'⟩ ∧ ns'.length = ns.length ∧
        ns'.dropLast = ns.dropLast := by
  obtain ⟨e0, h0, hn⟩ := Res.bind_eq_ok.mp h
  have wf : ∀ {d : Bytes} {x : Embeddings T SimpleVocab (NdArray F) F}, readTextDimsRaw lossy d pos = .ok x →
      x.storage.inner.WF ∧ Vocab.vocabLen x.vocab = .ok (shape x.storage).1 := by
    intro d x hx
    obtain ⟨n0, k0, p10, p20, lines0, rows0, g1, g2, ha1, ha2, hl0, hr0, hlen, hn, hnd, htot, rfl⟩ :=
      (c50_dims_accepts _ _ _ _).mp hx
    refine ⟨Mat.ofFlat_wf (by omega), ?_⟩
    simp [Storage.shape, Mat.dim, hlen, Vocab.vocabLen, (indexMap_len_iff _).mpr hnd]
  rcases c82_text_dims lossy d pos m n k p1 p2 lines rows e0 h0 h1 h2 hl hr hlast with ⟨x, hx⟩ | ⟨e0', hx, a1, a2, a3, a4⟩
  · exact .inl ⟨x, by unfold readTextDims; rw [hx]; rfl⟩
  · right
    obtain ⟨w1, v1⟩ := wf h0
    obtain ⟨w2, v2⟩ := wf hx
    obtain ⟨r1, r2⟩ := a4.rows w1 w2
    rw [normalizeRead_eq v1] at hn
    cases hn
    have hx' : readTextDims lossy (d.take m) pos = normalizeRead e0' := by
      unfold readTextDims
      rw [hx, Res.ok_bind]
    rw [normalizeRead_eq v2] at hx'
    rw [hx']
    refine ⟨_, rfl, rfl, a2, ?_, ?_, ?_,
      _, _, rfl, rfl, ?_, ?_⟩
    · have := a4.1
      simp only [Mat.dim, Prod.mk.injEq] at this
      simpa [Embeddings.dims, Storage.shape, Mat.dim] using this.2
    · simpa using r1
    · simp only [← List.map_dropLast, r2]
    · simpa using r1
    · simp only [← List.map_dropLast, r2]

omit [Scalar F] in
/-- **C82** (floret). If a floret file is cut off anywhere, then the reader returns an error, or it returns embeddings that
differ from those of the whole file in no more than the last component of the last bucket. It does not panic. -/
theorem c82_floret (d : Bytes) (pos m : Nat) (e : Embeddings T FloretSubwordVocab (NdArray F) F)
    (h : Embeddings.readFloret d pos = .ok e) :
    (∃ x, (Embeddings.readFloret (d.take m) pos : Res (Embeddings T FloretSubwordVocab (NdArray F) F)) = .err x) ∨
    ∃ e' : Embeddings T FloretSubwordVocab (NdArray F) F, Embeddings.readFloret (d.take m) pos = .ok e' ∧
      e'.metadata = e.metadata ∧ e'.vocab = e.vocab ∧ e'.norms = e.norms ∧
      SameUpToLast e'.storage.inner e.storage.inner := by
  obtain ⟨hd, p, lines, rows, h1, c1, c2, c3, c4, c5, c6, hl, hn1, hn2, hr, hm, hno, hst, hv⟩ := (c60_accepts _ _ _).mp h
  -- the first line of the beginning of the file
  have head : ∀ {hd' : FloretHead} {p' : Nat}, readFloretHead (d.take m) pos = .ok (hd', p') →
      (hd' = hd ∧ p' = p) ∨ (hd'.nBuckets = hd.nBuckets ∧ hd'.embedLen = hd.embedLen ∧ (d.take m).drop p' = []) := by
    intro hd' p' hh
    unfold readFloretHead at h1 hh
    obtain ⟨n1, q1, a1, h1⟩ := Rd.bind_ok.mp h1
    obtain ⟨n2, q2, a2, h1⟩ := Rd.bind_ok.mp h1
    obtain ⟨n3, q3, a3, h1⟩ := Rd.bind_ok.mp h1
    obtain ⟨n4, q4, a4, h1⟩ := Rd.bind_ok.mp h1
    obtain ⟨n5, q5, a5, h1⟩ := Rd.bind_ok.mp h1
    obtain ⟨n6, q6, a6, h1⟩ := Rd.bind_ok.mp h1
    obtain ⟨n7, q7, a7, h1⟩ := Rd.bind_ok.mp h1
    obtain ⟨n8, q8, a8, h1⟩ := Rd.bind_ok.mp h1
    obtain ⟨m1, r1, b1, hh⟩ := Rd.bind_ok.mp hh
    obtain ⟨m2, r2, b2, hh⟩ := Rd.bind_ok.mp hh
    obtain ⟨m3, r3, b3, hh⟩ := Rd.bind_ok.mp hh
    obtain ⟨m4, r4, b4, hh⟩ := Rd.bind_ok.mp hh
    obtain ⟨m5, r5, b5, hh⟩ := Rd.bind_ok.mp hh
    obtain ⟨m6, r6, b6, hh⟩ := Rd.bind_ok.mp hh
    obtain ⟨m7, r7, b7, hh⟩ := Rd.bind_ok.mp hh
    obtain ⟨m8, r8, b8, hh⟩ := Rd.bind_ok.mp hh
    cases h1
    cases hh
    have step : ∀ {q n r m' m'' r' : Nat}, readNumber 32 d q = .ok (n, r) → readNumber 32 (d.take m) q = .ok (m', r') →
        ∀ {r''}, readNumber 32 (d.take m) r' = .ok (m'', r'') → m' = n ∧ r' = r := by
      intro q n r m' m'' r' x1 x2 r'' x3
      rcases readNumber_take x2 with ⟨y, -⟩ | y
      · rw [x1] at y; cases y; exact ⟨rfl, rfl⟩
      · rw [readNumber_end y] at x3; cases x3
    have stay : ∀ {delim : UInt8} {q q' : Nat} {s : Str}, (d.take m).drop q = [] →
        readToken delim false (d.take m) q = .ok (s, q') → (d.take m).drop q' = [] := by
      intro delim q q' s x1 x2
      rw [readToken_apply, x1] at x2
      obtain ⟨s', -, x3⟩ := Res.map_eq_ok.mp x2
      cases x3
      exact x1
    obtain ⟨rfl, rfl⟩ := step a1 b1 b2
    obtain ⟨rfl, rfl⟩ := step a2 b2 b3
    obtain ⟨rfl, rfl⟩ := step a3 b3 b4
    obtain ⟨rfl, rfl⟩ := step a4 b4 b5
    obtain ⟨rfl, rfl⟩ := step a5 b5 b6
    rcases readNumber_take b6 with ⟨y6, -⟩ | y6
    · rw [a6] at y6
      cases y6
      rcases readToken_take b7 with ⟨y7, -⟩ | y7
      · rw [a7] at y7
        cases y7
        rcases readToken_take b8 with ⟨y8, -⟩ | y8
        · rw [a8] at y8
          cases y8
          exact .inl ⟨rfl, rfl⟩
        · exact .inr ⟨rfl, rfl, y8⟩
      · exact .inr ⟨rfl, rfl, stay y7 b8⟩
    · exact .inr ⟨rfl, rfl, stay (stay y6 b7) b8⟩
  cases hc : (Embeddings.readFloret (d.take m) pos : Res (Embeddings T FloretSubwordVocab (NdArray F) F)) with
  | err x => exact .inl ⟨x, rfl⟩
  | panic =>
    exfalso
    obtain ⟨hd', p', g1, -, -, -, -, -, g2⟩ := (c60_panics _ _).mp hc
    rcases head g1 with ⟨rfl, -⟩ | ⟨e1, e2, -⟩
    · omega
    · rw [e1, e2] at g2; omega
  | ok e' =>
    right
    refine ⟨e', rfl, ?_⟩
    obtain ⟨hd', p', lines', rows', g1, d1, d2, -, -, -, -, hl', hn1', hn2', hr', hm', hno', hst', hv'⟩ :=
      (c60_accepts _ _ _).mp hc
    rcases head g1 with ⟨rfl, rfl⟩ | ⟨e1, e2, e3⟩
    · have hne : lines ≠ [] := by rintro rfl; exact c1 hn1.symm
      obtain ⟨init, last, last', rfl, rfl, hpre⟩ := hl.prefix hl' (by rw [List.drop_take]; exact List.take_prefix _ _)
        (by omega) hne
      have hrne : rows ≠ [] := by rintro rfl; exact c1 hn2.symm
      have hrne' : rows' ≠ [] := by rintro rfl; exact c1 hn2'.symm
      obtain ⟨ri, r, rfl⟩ : ∃ ri r, rows = ri ++ [r] := ⟨_, _, (List.dropLast_concat_getLast hrne).symm⟩
      obtain ⟨ri', r', rfl⟩ : ∃ ri r, rows' = ri ++ [r] := ⟨_, _, (List.dropLast_concat_getLast hrne').symm⟩
      simp only [List.length_append, List.length_singleton] at hn1 hn2 hn1' hn2'
      have hri : ri' = ri := by
        apply List.ext_getElem (by omega)
        intro i i1 i2
        have i3 : i < init.length := by omega
        have z : ∀ (u : Bytes), (init ++ [u])[i]? = some init[i] := fun u => by
          rw [List.getElem?_append_left i3, List.getElem?_eq_getElem i3]
        have z1 : (ri ++ [r])[i]? = some ri[i] := by rw [List.getElem?_append_left i2, List.getElem?_eq_getElem i2]
        have z2 : (ri' ++ [r'])[i]? = some ri'[i] := by rw [List.getElem?_append_left i1, List.getElem?_eq_getElem i1]
        have x1 := hr i init[i] ri[i] (z _) z1
        have x2 := hr' i init[i] ri'[i] (z _) z2
        have y1 := (readFloretLine_iff (by omega)).mpr x1
        rw [(readFloretLine_iff (by omega)).mpr x2] at y1
        exact Res.ok.inj y1
      subst hri
      obtain ⟨⟨s, t, ps, hs, ht, hx⟩, hk⟩ := hr init.length last r (by simp) (by
        rw [show init.length = ri'.length by omega]; simp)
      obtain ⟨⟨s', t', ps', hs', ht', hx'⟩, hk'⟩ := hr' init.length last' r' (by simp) (by
        rw [show init.length = ri'.length by omega]; simp)
      have hr0 : r ≠ [] := by rintro rfl; exact c2 hk.symm
      have hr0' : r' ≠ [] := by rintro rfl; exact c2 hk'.symm
      obtain ⟨-, e2⟩ := components_cut ht ht' hx hx' (s0 := s') (x := []) (by simp) (by simp)
        (utf8_prefix_iff.mp (by rw [hs, hs']; exact hpre)) (by omega) hr0
      rw [hv'] at hv
      refine ⟨by rw [hm, hm'], Res.ok.inj hv, by rw [hno, hno'], ?_⟩
      rw [hst, hst']
      refine ⟨?_, ?_, flatten_dropLast hr0 hr0' e2⟩
      · simp [Mat.dim, Mat.nrows]
      · simp [hk, hk']
    · exfalso
      rw [e3] at hl'
      have : lines' = [] := hl'.eq
      subst this
      exact d1 hn1'.symm

end Text

/-! ## Examples -/

attribute [local instance] exampleScalar exampleFloatText exampleScalarNat exampleConfigToml

/-- Is the outcome an error? -/
def Res.isErr {α : Type} : Res α → Bool
  | .err _ => true
  | _ => false

/-- The hypotheses of `c82_word2vec` can be met: a file of two words, of which one byte or more are missing. -/
example : exampleW2vRead (ascii "2 1\na " ++ [1, 0, 0, 0, 10] ++ ascii "b " ++ [2, 0, 0, 0, 10]) =
      .ok ([['a'], ['b']], [[1], [2]], 1, 17) ∧
    Shown ['2'] 2 ∧ Shown ['1'] 1 ∧
    ∀ m < 17, (exampleW2vRead
      ((ascii "2 1\na " ++ [1, 0, 0, 0, 10] ++ ascii "b " ++ [2, 0, 0, 0, 10]).take m)).isErr = true := by
  refine ⟨by decide +kernel, ⟨.one 2 (by decide), by decide⟩, ⟨.one 1 (by decide), by decide⟩, by decide +kernel⟩

/-- With superfluous zeros, which `c82_word2vec` excludes, a cut in the first line can go unnoticed. -/
example : exampleW2vRead (ascii "1 01\na " ++ [1, 0, 0, 0, 10]) = .ok ([['a']], [[1]], 1, 11) ∧
    exampleW2vRead (ascii "1 01") = .ok ([[]], [[]], 0, 4) := by
  decide +kernel

/-- Outcome of reading a text with a first line: words and rows. -/
def exampleCut (d : Bytes) : Res (List Str × List (List F32)) :=
  (readTextDimsRaw false d 0 : Res (Embeddings Str SimpleVocab (NdArray F32) F32)).map
    fun e => (e.vocab.words, e.storage.inner.rows)

/-- **C82** (unnoticed truncation). The cases of `c82_text_dims`: the last component is incomplete, which is not noticed, or
there is an error. -/
theorem c82_unnoticed : exampleCut (ascii "2 2\na 1 2\nb 3 45\n") = .ok ([['a'], ['b']], [[1, 2], [3, 45]]) ∧
    exampleCut ((ascii "2 2\na 1 2\nb 3 45\n").take 16) = .ok ([['a'], ['b']], [[1, 2], [3, 45]]) ∧
    exampleCut ((ascii "2 2\na 1 2\nb 3 45\n").take 15) = .ok ([['a'], ['b']], [[1, 2], [3, 4]]) ∧
    ∀ m < 15, (exampleCut ((ascii "2 2\na 1 2\nb 3 45\n").take m)).isErr = true := by
  decide +kernel

/-- If the last line has no components, a cut can change a word or make the reader panic. -/
example : exampleCut (ascii "2 1\na 1 2\nab\n") = .ok ([['a'], ['a', 'b']], [[1], [2]]) ∧
    exampleCut ((ascii "2 1\na 1 2\nab\n").take 11) = .panic ∧
    exampleCut ((ascii "2 1\na 1 2\nbc\n").take 11) = .ok ([['a'], ['b']], [[1], [2]]) := by
  decide +kernel

/-- `c82_text_dims` applied to a file of two lines, cut anywhere. -/
example (m : Nat) := c82_text_dims (T := Unit) (F := F32) false (utf8 "2 1\na 1\nb 23\n".toList) 0 m 2 1 2 4
  [utf8 "a 1".toList, utf8 "b 23".toList] [(['a'], [1]), (['b'], [23])]
  ⟨none, ⟨⟨1, [[1], [23]]⟩⟩, ⟨indexMap [['a'], ['b']], [['a'], ['b']]⟩, none⟩ (by decide +kernel) (by decide +kernel)
  (by decide +kernel) ⟨by decide, .inl (by decide +kernel)⟩ (linesHave_iff.mp (by decide +kernel))
  (by intro r h; cases h; decide)

/-- `c82_text_dims_normalized` applied to the same file, whose second word is cut within a character by some of the cuts,
and its cases for the lossy reader: nothing is read if only a part of the word is left. -/
example (m : Nat) (e : Embeddings Unit SimpleVocab (NdArray F32) F32)
    (h : readTextDims true (utf8 "2 1\na 1\né 23\n".toList) 0 = .ok e) :=
  c82_text_dims_normalized (T := Unit) (F := F32) true (utf8 "2 1\na 1\né 23\n".toList) 0 m 2 1 2 4
  [utf8 "a 1".toList, utf8 "é 23".toList] [(['a'], [1]), (['é'], [23])] e h (by decide +kernel)
  (by decide +kernel) ⟨by decide, .inl (by decide +kernel)⟩ (linesHave_iff.mp (by decide +kernel))
  (by intro r h; cases h; decide)

example : ∀ m ∈ [9, 10, 11, 12, 13, 14],
    (readTextDims true ((utf8 "2 1\na 1\né 23\n".toList).take m) 0 :
      Res (Embeddings Unit SimpleVocab (NdArray F32) F32)).map (fun e => e.storage.inner.cols) =
      if m < 12 then .err .format else .ok 1 := by
  decide +kernel

/-- The cases of `c82_floret`. -/
example : exampleFloretTable "2 2 3 6 3 7 < >\n0 1 2\n1 3 45\n" = .ok [[1, 2], [3, 45]] ∧
    exampleFloretTable "2 2 3 6 3 7 < >\n0 1 2\n1 3 4" = .ok [[1, 2], [3, 4]] ∧
    exampleFloretTable "2 2 3 6 3 7 < >\n0 1 2\n1 3 " = .err .format ∧
    exampleFloretTable "2 2 3 6 3 7 < >\n0 1 2\n" = .err .shape ∧
    exampleFloretTable "2 2 3 6 3 7 <" = .err .shape ∧
    exampleFloretTable "2 2 3 6" = .err .format := by
  refine ⟨?_, ?_, ?_, ?_, ?_, ?_⟩ <;> decide +kernel

/-- The hypotheses of `c82_fasttext` can be met: the example file is read up to its end, and not without its last byte. -/
example : (Embeddings.readFastText false exampleFtFile.bytes 0 :
      Res (Embeddings FtConfig FastTextSubwordVocab (NdArray F32) F32 × Nat)).map (·.2) =
      .ok exampleFtFile.bytes.length ∧
    (Embeddings.readFastText false (exampleFtFile.bytes.take (exampleFtFile.bytes.length - 1)) 0 :
      Res (Embeddings FtConfig FastTextSubwordVocab (NdArray F32) F32 × Nat)).map (·.2) = .err .io := by
  decide +kernel

end FF
