import Verif.Props.Floret
import Verif.Props.FastText
import Verif.Props.Layout
import Verif.Props.TextExact
import Verif.Props.Vectors

/-!
# C75: the bytes of files written in the other formats

The counterpart of C65 for word2vec, text, floret and fastText files: when writing succeeds, and what has been written
then.
-/

namespace FF

open Res Storage Layout

/-! ## Specification -/

/-- `s` is the decimal number `n` without superfluous zeros. -/
def Shown (s : Str) (n : Nat) : Prop := Decimal s n ∧ (s.head? = some '0' → s = ['0'])

section
variable {T V S F : Type} [Vocab V] [Storage S F] [Scalar F]

/-- `n` is the norm stored for row `i`; one if no norms are stored. -/
def IsNorm (e : Embeddings T V S F) (i : Nat) (n : F) : Prop :=
  (e.norms = none → n = Scalar.one) ∧ ∀ ns, e.norms = some ns → ns.inner[i]? = some n

/-- `v` is row `i` of the storage, multiplied by its norm if asked for. -/
def IsOutput (e : Embeddings T V S F) (un : Bool) (i : Nat) (v : List F) : Prop :=
  ∃ u n, embedding e.storage i = .ok u ∧ IsNorm e i n ∧ IsScaled (if un = true then some n else none) u v

/-- The entries of `vs` belong to the words at the same positions. -/
def Outputs (e : Embeddings T V S F) (un : Bool) (vs : List (List F)) : Prop :=
  vs.length = (Vocab.words e.vocab).length ∧ ∀ (i : Nat) (v : List F), vs[i]? = some v → IsOutput e un i v

/-- Every word has a row and a norm. -/
def HasRows (e : Embeddings T V S F) : Prop :=
  ∀ i, i < (Vocab.words e.vocab).length →
    (∃ u, embedding e.storage i = .ok u) ∧ ∀ ns, e.norms = some ns → i < ns.inner.length

end

/-- A line of text: a word or number and floats, separated by spaces. -/
def textLine {F : Type} [FloatText F] (w : Str) (v : List F) : Bytes :=
  utf8 w ++ [32] ++ utf8 ([' '].intercalate (v.map FloatText.print)) ++ [10]

/-! ## Proofs -/

theorem printNatF_head (f n : Nat) (h : n < f) : (printNatF f n).head? = some '0' → printNatF f n = ['0'] := by
  induction f generalizing n with
  | zero => omega
  | succ f ih =>
    intro hh
    unfold printNatF at hh ⊢
    have hd : ∀ d < 10, Char.ofNat (48 + d) = '0' → d = 0 := by decide
    by_cases h10 : n < 10
    · rw [if_pos h10] at hh ⊢
      have : Char.ofNat (48 + n % 10) = '0' := by simpa using hh
      rw [hd _ (by omega) this]
      rfl
    · rw [if_neg h10] at hh
      exfalso
      cases hp : printNatF f (n / 10) with
      | nil =>
        obtain ⟨f', rfl⟩ : ∃ f', f = f' + 1 := ⟨f - 1, by omega⟩
        exact printNatF_ne_nil _ _ hp
      | cons c t =>
        rw [hp] at hh
        have hc : c = '0' := by simpa using hh
        have h0 := ih (n / 10) (by omega) (by rw [hp, hc]; rfl)
        have hv := digitsVal_printNatF f (n / 10) (by omega)
        rw [h0] at hv
        have : n / 10 = 0 := hv.symm.trans rfl
        omega

/-- Numbers are written in decimal. -/
theorem printNat_shown (n : Nat) : Shown (printNat n) n := by
  refine ⟨?_, printNatF_head _ _ (by omega)⟩
  have := Decimal.of_digits _ (printNat n) rfl (printNat_ne_nil n)
    (by rw [List.all_eq_true]; exact printNat_digits n)
  rwa [show digitsVal (printNat n) = n from digitsVal_printNatF _ _ (by omega)] at this

theorem joinFloats_eq {F : Type} [FloatText F] (v : List F) :
    Embeddings.joinFloats v = [' '].intercalate (v.map FloatText.print) := by
  induction v with
  | nil => rfl
  | cons x v ih =>
    cases v with
    | nil => simp [Embeddings.joinFloats, List.intercalate]
    | cons y v =>
      rw [Embeddings.joinFloats, ih]
      simp [List.intercalate]

theorem utf8_append' (a b : Str) : utf8 (a ++ b) = utf8 a ++ utf8 b := by simp

theorem textLine_eq {F : Type} [FloatText F] (w : Str) (v : List F) :
    utf8 (w ++ ' ' :: Embeddings.joinFloats v) ++ [10] = textLine w v := by
  unfold textLine
  rw [joinFloats_eq, show ' ' :: ([' '].intercalate (v.map FloatText.print)) = [' '] ++ [' '].intercalate (v.map FloatText.print) from rfl,
    utf8_append', utf8_append']
  simp only [List.append_assoc]
  rfl

namespace W

theorem good_each_iff {α : Type} {f : α → W} {l : List α} : Good (each f l) ↔ ∀ a ∈ l, Good (f a) := by
  induction l with
  | nil => simp [each]
  | cons a l ih => simp [each, ih]

theorem good_ofRes_iff {α : Type} {r : Res α} {f : α → W} : Good (ofRes r f) ↔ ∃ a, r = .ok a ∧ Good (f a) := by
  cases r <;> simp [ofRes, Good, done]

/-- A loop whose iterations compute something and write it. -/
theorem each_ofRes {α β : Type} {l : List α} {r : α → Res β} {g : α → β → W} {h : α → β → Bytes}
    (hg : ∀ a b, Good (g a b) ∧ (g a b).bytes = h a b) :
    (Good (each (fun a => ofRes (r a) (g a)) l) ↔ ∀ a ∈ l, ∃ b, r a = .ok b) ∧
    (Good (each (fun a => ofRes (r a) (g a)) l) → ∃ bs, l.map r = bs.map .ok ∧
      (each (fun a => ofRes (r a) (g a)) l).bytes = (l.zip bs).flatMap fun p => h p.1 p.2) := by
  have hiff : Good (each (fun a => ofRes (r a) (g a)) l) ↔ ∀ a ∈ l, ∃ b, r a = .ok b := by
    rw [good_each_iff]
    simp only [good_ofRes_iff, fun a b => (hg a b).1, and_true]
  refine ⟨hiff, fun hgood => ?_⟩
  have hr := hiff.mp hgood
  clear hiff hgood
  induction l with
  | nil => exact ⟨[], rfl, rfl⟩
  | cons a l ih =>
    obtain ⟨b, hb⟩ := hr a (by simp)
    obtain ⟨bs, h1, h2⟩ := ih fun a' h' => hr a' (by simp [h'])
    refine ⟨b :: bs, by simp [h1, hb], ?_⟩
    rw [each, hb]
    rw [bytes_seq (show Good (ofRes (Res.ok b) (g a)) from (hg a b).1), h2]
    show (g a b).bytes ++ _ = _
    rw [(hg a b).2]
    rfl

end W

section
variable {T V S F : Type} [Vocab V] [Storage S F] [Scalar F]

omit [Vocab V] [Storage S F] in
theorem normAt_ok_iff (e : Embeddings T V S F) (i : Nat) (n : F) : e.normAt i = .ok n ↔ IsNorm e i n := by
  unfold Embeddings.normAt IsNorm
  cases e.norms with
  | none =>
    constructor
    · intro h; cases h; exact ⟨fun _ => rfl, fun ns h => by cases h⟩
    · intro h; rw [h.1 rfl]
  | some ns =>
    constructor
    · intro h
      exact ⟨fun h => (by cases h), fun ns' h' => by cases h'; exact unwrap_eq_ok.mp h⟩
    · intro h
      exact unwrap_eq_ok.mpr (h.2 ns rfl)

omit [Vocab V] in
/-- What the loops of the writers compute for a row. -/
theorem rowNorm_ok_iff (e : Embeddings T V S F) (i : Nat) :
    (∃ b, (do let v ← embedding e.storage i; let n ← e.normAt i; return (v, n) : Res (List F × F)) = .ok b) ↔
    (∃ u, embedding e.storage i = .ok u) ∧ ∀ ns, e.norms = some ns → i < ns.inner.length := by
  constructor
  · rintro ⟨b, hb⟩
    obtain ⟨u, hu, hb⟩ := Res.bind_eq_ok.mp hb
    obtain ⟨n, hn, hb⟩ := Res.bind_eq_ok.mp hb
    refine ⟨⟨u, hu⟩, fun ns hns => ?_⟩
    exact (List.getElem?_eq_some_iff.mp (((normAt_ok_iff e i n).mp hn).2 ns hns)).1
  · rintro ⟨⟨u, hu⟩, hn⟩
    have : ∃ n, e.normAt i = .ok n := by
      unfold Embeddings.normAt
      cases hns : e.norms with
      | none => exact ⟨_, rfl⟩
      | some ns => exact ⟨_, unwrap_eq_ok.mpr (List.getElem?_eq_getElem (hn ns hns))⟩
    obtain ⟨n, hn⟩ := this
    exact ⟨(u, n), by rw [hu, Res.ok_bind, hn]; rfl⟩

theorem intoUnnormalized_spec (v : List F) (n : F) (un : Bool) :
    IsScaled (if un = true then some n else none) v (if un = true then Embeddings.intoUnnormalized (v, n) else v) := by
  cases un with
  | true =>
    refine ⟨fun h => (by cases h), fun y h => ?_⟩
    cases h
    exact ⟨by simp [Embeddings.intoUnnormalized, scale], fun j x hx => by simp [Embeddings.intoUnnormalized, scale, hx]⟩
  | false => exact ⟨fun _ => rfl, fun y h => by cases h⟩

theorem zipIdx_zip_flatMap {α β γ : Type} (f : α → β → List γ) (l : List α) (vs : List β) (k : Nat) :
    ((l.zipIdx k).zip vs).flatMap (fun p => f p.1.1 p.2) = (l.zip vs).flatMap fun p => f p.1 p.2 := by
  induction l generalizing vs k with
  | nil => rfl
  | cons a l ih =>
    cases vs with
    | nil => rfl
    | cons v vs => simp [ih]

/-- The loop of the word2vec and text writers. -/
theorem eachRow_written (e : Embeddings T V S F) (un : Bool) {f : Str → List F → W} {h : Str → List F → Bytes}
    (hf : ∀ w v, (f w v).Good ∧ (f w v).bytes = h w v) :
    ((e.eachRow un f).Good ↔ HasRows e) ∧
    ((e.eachRow un f).Good → ∃ vs, Outputs e un vs ∧
      (e.eachRow un f).bytes = ((Vocab.words e.vocab).zip vs).flatMap fun p => h p.1 p.2) := by
  unfold Embeddings.eachRow
  have hx := W.each_ofRes (l := (Vocab.words e.vocab).zipIdx)
    (r := fun p => (do
      let v ← Storage.embedding e.storage p.2
      let n ← e.normAt p.2
      return (v, n) : Res (List F × F)))
    (g := fun p vn => f p.1 (if un = true then Embeddings.intoUnnormalized vn else vn.1))
    (h := fun p vn => h p.1 (if un = true then Embeddings.intoUnnormalized vn else vn.1))
    (fun p vn => hf _ _)
  refine ⟨hx.1.trans ?_, fun hgood => ?_⟩
  · constructor
    · intro hall i hi
      have hm : ((Vocab.words e.vocab)[i], i) ∈ (Vocab.words e.vocab).zipIdx := by
        rw [List.mem_zipIdx_iff_getElem?]; exact List.getElem?_eq_getElem hi
      exact (rowNorm_ok_iff e i).mp (hall _ hm)
    · rintro hall ⟨w, i⟩ hm
      rw [List.mem_zipIdx_iff_getElem?] at hm
      exact (rowNorm_ok_iff e i).mpr (hall i (List.getElem?_eq_some_iff.mp hm).1)
  · obtain ⟨bs, h1, h2⟩ := hx.2 hgood
    have hl : bs.length = (Vocab.words e.vocab).length := by
      have := congrArg List.length h1
      simpa using this.symm
    refine ⟨bs.map fun vn => if un = true then Embeddings.intoUnnormalized vn else vn.1, ⟨by simpa using hl, ?_⟩, ?_⟩
    · intro i v hv
      rw [List.getElem?_map] at hv
      cases hb : bs[i]? with
      | none => rw [hb] at hv; cases hv
      | some vn =>
        rw [hb] at hv
        have hv : (if un = true then Embeddings.intoUnnormalized vn else vn.1) = v := by simpa using hv
        subst hv
        have hi : i < (Vocab.words e.vocab).length := by
          have := (List.getElem?_eq_some_iff.mp hb).1; omega
        have := congrArg (·[i]?) h1
        simp only [List.getElem?_map, hb, List.getElem?_zipIdx, List.getElem?_eq_getElem hi, Option.map_some,
          Option.some.injEq] at this
        obtain ⟨u, hu, this⟩ := Res.bind_eq_ok.mp this
        obtain ⟨n, hn, this⟩ := Res.bind_eq_ok.mp this
        cases this
        rw [Nat.zero_add] at hu hn
        exact ⟨u, n, hu, (normAt_ok_iff e i n).mp hn, intoUnnormalized_spec u n un⟩
    · rw [h2, ← zipIdx_zip_flatMap h _ _ 0, List.zip_map_right, List.flatMap_map]
      rfl

omit [Scalar F] in
/-- The first line of word2vec files and of text files with dimensions. -/
theorem shapeLine_written (e : Embeddings T V S F) : e.shapeLine.Good ∧ ∃ a b, Shown a (Vocab.wordsLen e.vocab) ∧
    Shown b (shape e.storage).2 ∧ e.shapeLine.bytes = utf8 a ++ [32] ++ utf8 b ++ [10] := by
  refine ⟨rfl, _, _, printNat_shown _, printNat_shown _, ?_⟩
  simp [Embeddings.shapeLine, Embeddings.dims]

/-- C75, word2vec: writing succeeds exactly if every word has a row and a norm. Then the file is a line with the number
of words and the dimensions and for each word the word, a space, the floats in little-endian order and a line feed. -/
theorem c75_word2vec [FloatBits F] (e : Embeddings T V S F) (un : Bool) :
    ((e.writeWord2vec un).Good ↔ HasRows e) ∧
    ((e.writeWord2vec un).Good → ∃ a b vs, Shown a (Vocab.wordsLen e.vocab) ∧ Shown b (shape e.storage).2 ∧
      Outputs e un vs ∧ (e.writeWord2vec un).bytes = utf8 a ++ [32] ++ utf8 b ++ [10] ++
        ((Vocab.words e.vocab).zip vs).flatMap fun p =>
          utf8 p.1 ++ [32] ++ floats (p.2.map FloatBits.toBits) ++ [10]) := by
  have hrow : ∀ (w : Str) (v : List F),
      (W.emit (utf8 w ++ [32]) ++ W.each (fun x => W.f32 (FloatBits.toBits x)) v ++ W.emit [10]).Good ∧
      (W.emit (utf8 w ++ [32]) ++ W.each (fun x => W.f32 (FloatBits.toBits x)) v ++ W.emit [10]).bytes =
        utf8 w ++ [32] ++ floats (v.map FloatBits.toBits) ++ [10] := by
    intro w v
    have hg : (W.each (fun x => W.f32 (FloatBits.toBits x)) v).Good := W.good_each fun _ _ => rfl
    refine ⟨W.good_seq (W.good_seq (W.good_emit _) hg) (W.good_emit _), ?_⟩
    rw [W.bytes_seq (W.good_seq (W.good_emit _) hg), W.bytes_seq (W.good_emit _), W.bytes_each fun _ _ => W.good_f32 _,
      ← encodeF32s_eq]
    simp [Rd.encodeF32s, List.flatMap_map]
  obtain ⟨h1, h2⟩ := eachRow_written e un hrow
  obtain ⟨hs, a, b, ha, hb, hab⟩ := shapeLine_written e
  unfold Embeddings.writeWord2vec
  refine ⟨W.good_seq_iff.trans ((and_iff_right hs).trans h1), fun hg => ?_⟩
  obtain ⟨vs, ho, hbs⟩ := h2 (W.good_seq_iff.mp hg).2
  exact ⟨a, b, vs, ha, hb, ho, by rw [W.bytes_seq hs, hab, hbs]⟩

/-- C75, text: a line for each word. -/
theorem c75_text [FloatText F] (e : Embeddings T V S F) (un : Bool) :
    ((e.writeText un).Good ↔ HasRows e) ∧
    ((e.writeText un).Good → ∃ vs, Outputs e un vs ∧
      (e.writeText un).bytes = ((Vocab.words e.vocab).zip vs).flatMap fun p => textLine p.1 p.2) := by
  exact eachRow_written e un fun w v => ⟨W.good_emit _, by rw [W.bytes_emit, textLine_eq]⟩

/-- C75, text with dimensions. -/
theorem c75_text_dims [FloatText F] (e : Embeddings T V S F) (un : Bool) :
    ((e.writeTextDims un).Good ↔ HasRows e) ∧
    ((e.writeTextDims un).Good → ∃ a b vs, Shown a (Vocab.wordsLen e.vocab) ∧ Shown b (shape e.storage).2 ∧
      Outputs e un vs ∧ (e.writeTextDims un).bytes = utf8 a ++ [32] ++ utf8 b ++ [10] ++
        ((Vocab.words e.vocab).zip vs).flatMap fun p => textLine p.1 p.2) := by
  obtain ⟨h1, h2⟩ := c75_text e un
  obtain ⟨hs, a, b, ha, hb, hab⟩ := shapeLine_written e
  unfold Embeddings.writeTextDims
  refine ⟨W.good_seq_iff.trans ((and_iff_right hs).trans h1), fun hg => ?_⟩
  obtain ⟨vs, ho, hbs⟩ := h2 (W.good_seq_iff.mp hg).2
  exact ⟨a, b, vs, ha, hb, ho, by rw [W.bytes_seq hs, hab, hbs]⟩

end

/-! ### Floret -/

section
variable {T F : Type}

/-- C75, floret: writing succeeds exactly if the matrix has at least as many rows as there are words. Then the file is
a line with the number of buckets, the dimensions, the n-gram lengths, the number of hashes, the seed and the boundary
markers, and a numbered line for each row of the matrix after those of the words. -/
theorem c75_floret [FloatText F] (e : Embeddings T FloretSubwordVocab (NdArray F) F) (n k : Nat) (seed : UInt32)
    (ix : FloretIndexer) (hix : FloretIndexer.new n k seed = .ok ix) (ws : List Str) (m M : Nat) (bow eow : Str)
    (hv : SubwordVocab.newWithBoundaries ws m M ix bow eow = .ok e.vocab) :
    (e.writeFloret.Good ↔ ws.length ≤ e.storage.inner.rows.length) ∧
    (e.writeFloret.Good → ∃ (hs : List Str) (lines : List Str), hs.length = 6 ∧
      (∀ (i : Nat) (h : Str) (x : Nat), hs[i]? = some h → [n, e.storage.inner.cols, m, M, k, seed.toNat][i]? = some x → Shown h x) ∧
      lines.length = e.storage.inner.rows.length - ws.length ∧ (∀ (i : Nat) (l : Str), lines[i]? = some l → Shown l i) ∧
      e.writeFloret.bytes = (hs.flatMap fun h => utf8 h ++ [32]) ++ utf8 bow ++ [32] ++ utf8 eow ++ [10] ++
        (lines.zip (e.storage.inner.rows.drop ws.length)).flatMap fun p => textLine p.1 p.2) := by
  obtain ⟨hnd, _, hve⟩ := SubwordVocab.newWithBoundaries_eq_ok.mp hv
  have hlen : (indexMap ws).len = ws.length := (indexMap_len_iff ws).mpr hnd
  have hwl : Vocab.wordsLen e.vocab = ws.length := by rw [hve]; exact hlen
  obtain ⟨_, _, rfl⟩ := FloretIndexer.new_eq_ok.mp hix
  have hvl : Vocab.vocabLen e.vocab = .ok (ws.length + n) := by
    rw [hve]; show Res.ok ((indexMap ws).len + n) = _; rw [hlen]
  have hhead : e.floretHeadLine.Good ∧ e.floretHeadLine.bytes =
      (([n, e.storage.inner.cols, m, M, k, seed.toNat].map printNat).flatMap fun h => utf8 h ++ [32]) ++
        utf8 bow ++ [32] ++ utf8 eow ++ [10] := by
    unfold Embeddings.floretHeadLine
    rw [hvl, hwl]
    refine ⟨rfl, ?_⟩
    show (W.emit _).bytes = _
    rw [W.bytes_emit, hve, Nat.add_sub_cancel_left]
    simp only [List.map_cons, List.map_nil, List.flatMap_cons, List.flatMap_nil, List.append_assoc, List.cons_append,
      List.nil_append, List.append_nil]
    rfl
  have hrow : ∀ p : List F × Nat, (Embeddings.floretRowLine p).Good ∧ (Embeddings.floretRowLine p).bytes =
      textLine (printNat p.2) p.1 := fun p => ⟨W.good_emit _, by
        unfold Embeddings.floretRowLine
        rw [W.bytes_emit, textLine_eq]⟩
  have hrows : (W.each Embeddings.floretRowLine (e.storage.inner.rows.drop ws.length).zipIdx).Good :=
    W.good_each fun p _ => (hrow p).1
  have hdone : (W.done (Res.assert (decide (ws.length ≤ e.storage.inner.nrows)))).Good ↔
      ws.length ≤ e.storage.inner.rows.length := by
    unfold W.Good W.done Res.assert
    show (if decide (ws.length ≤ e.storage.inner.rows.length) = true then Res.ok () else .panic) = .ok () ↔ _
    split
    · next h => simpa using h
    · next h => simpa using h
  unfold Embeddings.writeFloret
  rw [hwl]
  refine ⟨?_, fun hg => ?_⟩
  · rw [W.good_seq_iff, W.good_seq_iff, hdone]
    exact ⟨fun h => h.1.2, fun h => ⟨⟨hhead.1, h⟩, hrows⟩⟩
  · have hg1 := (W.good_seq_iff.mp hg).1
    refine ⟨[n, e.storage.inner.cols, m, M, k, seed.toNat].map printNat,
      (List.range (e.storage.inner.rows.length - ws.length)).map printNat, rfl, ?_, by simp, ?_, ?_⟩
    · intro i h x hh hx
      rw [List.getElem?_map, hx] at hh
      cases hh
      exact printNat_shown x
    · intro i l hl
      rw [List.getElem?_map] at hl
      by_cases hi : i < e.storage.inner.rows.length - ws.length
      · rw [List.getElem?_range hi] at hl
        cases hl
        exact printNat_shown i
      · rw [List.getElem?_eq_none (by simp; omega)] at hl
        cases hl
    · rw [W.bytes_seq hg1, W.bytes_seq hhead.1, W.bytes_each fun p _ => (hrow p).1, hhead.2]
      rw [show (W.done (Res.assert (decide (ws.length ≤ e.storage.inner.nrows)))).bytes = [] from rfl, List.append_nil]
      congr 1
      rw [List.zipIdx_eq_zip_range', List.length_drop, List.range_eq_range']
      generalize e.storage.inner.rows.length - ws.length = c
      generalize e.storage.inner.rows.drop ws.length = rows
      generalize List.range' 0 c = is
      simp only [(hrow _).2]
      induction rows generalizing is with
      | nil => simp
      | cons r rows ih =>
        cases is with
        | nil => rfl
        | cons i is => simp only [List.zip_cons_cons, List.flatMap_cons, List.map_cons, ih]

end

/-! ### fastText -/

section
variable {T S F : Type} [Scalar F] [ScalarNat F] [Storage S F]

/-- Specification: `v` is the row of a word as written in fastText files. Row `i` is multiplied by its norm. If the
word has n-grams, with the indices `is`, it is multiplied by their number plus one, and their rows are subtracted. -/
def IsTakenOut (e : Embeddings T FastTextSubwordVocab S F) (is : List Nat) (i : Nat) (v : List F) : Prop :=
  ∃ (u : List F) (n : F) (rows : List (List F)), embedding e.storage i = .ok u ∧ IsNorm e i n ∧ is.map (embedding e.storage) = rows.map Res.ok ∧
    v.length = u.length ∧ ∀ (j : Nat) (x : F), u[j]? = some x → v[j]? = some (if is = [] then Scalar.mul x n
      else (rows.filterMap (·[j]?)).foldl Scalar.sub (Scalar.mul (Scalar.mul x n) (ScalarNat.ofNat (is.length + 1))))

omit [ScalarNat F] [Storage S F] in
theorem foldl_zipWith_sub (d : Nat) (rows : List (List F)) (hrows : ∀ r ∈ rows, r.length = d) (z : List F)
    (hz : z.length = d) :
    (rows.foldl (List.zipWith Scalar.sub) z).length = d ∧
    ∀ (j : Nat) (x : F), z[j]? = some x → (rows.foldl (List.zipWith Scalar.sub) z)[j]? =
      some ((rows.filterMap (·[j]?)).foldl Scalar.sub x) := by
  induction rows generalizing z with
  | nil => exact ⟨hz, fun j x h => h⟩
  | cons r rows ih =>
    have hr := hrows r (by simp)
    obtain ⟨h1, h2⟩ := ih (fun r' h => hrows r' (by simp [h])) (List.zipWith Scalar.sub z r) (by simp [hz, hr])
    refine ⟨h1, fun j x hx => ?_⟩
    obtain ⟨hj, _⟩ := List.getElem?_eq_some_iff.mp hx
    have hj' : j < r.length := by omega
    rw [List.foldl_cons, h2 j (Scalar.sub x r[j]) (by rw [List.getElem?_zipWith, hx, List.getElem?_eq_getElem hj']),
      List.filterMap_cons, List.getElem?_eq_getElem hj']
    rfl

/-- The subword indices of any word of a fastText vocabulary. -/
theorem fasttext_indices (n : Nat) (ix : FastTextIndexer) (hix : FastTextIndexer.new n = .ok ix) (h0 : 0 < n)
    (ws : List Str) (m M : Nat) (bow eow : Str) (v : FastTextSubwordVocab)
    (hv : SubwordVocab.newWithBoundaries ws m M ix bow eow = .ok v) (hm : 1 ≤ m) (hM : m ≤ M) (w : Str) :
    v.subwordIndices w = .ok (
      let is := ((NGramsSpec (bow ++ w ++ eow) m M).map (·.1)).map fun g => ws.length + HashSpec.fasttext g % n
      if is = [] then none else some is) := by
  obtain ⟨hn, _, rfl⟩ := SubwordVocab.newWithBoundaries_eq_ok.mp hv
  have hlen : (indexMap ws).len = ws.length := (indexMap_len_iff ws).mpr hn
  have hh : ∀ g, (fasttextHash g).toNat % n = HashSpec.fasttext g % n := by
    intro g
    have := (FastTextIndexer.answers hix (by omega) (NGram.ofStr g)).symm.trans (c66_fasttext n ix hix h0 g)
    simp only [Res.ok.injEq, List.cons.injEq, and_true] at this
    rw [← this]
    rfl
  simp only [SubwordVocab.subwordIndices, SubwordVocab.bracket]
  rw [subwordIndices_eq (FastTextIndexer.answers hix (by omega)) _ hm hM]
  have e1 : (indexed ix (bow ++ w ++ eow) m M).flatMap
      (fun g => [(fasttextHash g.inner).toNat % n]) =
      (bracketedNGrams bow w eow m M).map fun g => (fasttextHash g).toNat % n := by
    unfold bracketedNGrams
    rw [← specFrom_inner_eq _ hm]
    show (specFrom m M _).flatMap _ = _
    rw [List.map_map, flatMap_single]
    rfl
  rw [e1]
  simp only [Res.ok_bind, Res.pure_eq, hlen, hh]
  unfold bracketedNGrams
  congr 1
  generalize (NGramsSpec (bow ++ w ++ eow) m M).map (·.1) = l
  cases l with
  | nil => rfl
  | cons g l =>
    simp [Function.comp_def, Nat.add_comm]

end

section
variable {T S F : Type} [Scalar F] [ScalarNat F] [Storage S F]

/-- What is computed for a word. -/
theorem ftWordRow_spec (e : Embeddings T FastTextSubwordVocab S F) (hr : RowsSized e.storage) (is : List Nat) (w : Str)
    (hi : e.vocab.subwordIndices w = .ok (if is = [] then none else some is))
    (ht : ∀ i ∈ is, ∃ v, embedding e.storage i = .ok v) (i : Nat) :
    ((∃ v, (do let v ← embedding e.storage i; let n ← e.normAt i; e.ftWordRow w v n : Res (List F)) = .ok v) ↔
      (∃ u, embedding e.storage i = .ok u) ∧ ∀ ns, e.norms = some ns → i < ns.inner.length) ∧
    ∀ v, (do let v ← embedding e.storage i; let n ← e.normAt i; e.ftWordRow w v n : Res (List F)) = .ok v →
      IsTakenOut e is i v := by
  obtain ⟨rows, hrows⟩ : ∃ rows, is.mapM (embedding e.storage) = .ok rows := by
    clear hi
    induction is with
    | nil => exact ⟨[], rfl⟩
    | cons j is ih =>
      obtain ⟨v, hv⟩ := ht j (by simp)
      obtain ⟨vs, hvs⟩ := ih fun i hi => ht i (by simp [hi])
      exact ⟨v :: vs, by rw [List.mapM_cons, hv, Res.ok_bind, hvs]; rfl⟩
  have hmap := mapM_eq_ok_iff.mp hrows
  have hall : ∀ (u : List F) (n : F), embedding e.storage i = .ok u → IsNorm e i n →
      ∃ v, e.ftWordRow w u n = .ok v ∧ IsTakenOut e is i v := by
    intro u n hu hn
    unfold Embeddings.ftWordRow
    rw [hi]
    by_cases h : is = []
    · rw [if_pos h]
      refine ⟨_, rfl, u, n, rows, hu, hn, hmap, by simp [scale], fun j x hx => ?_⟩
      rw [if_pos h]
      simp [scale, hx]
    · rw [if_neg h]
      simp only [Res.ok_bind, hrows]
      have hd : ∀ r ∈ rows, r.length = (shape e.storage).2 := by
        intro r hrm
        have : Res.ok r ∈ is.map (embedding e.storage) := by rw [hmap]; exact List.mem_map_of_mem hrm
        obtain ⟨j, _, hj⟩ := List.mem_map.mp this
        exact hr j r hj
      obtain ⟨h1, h2⟩ := foldl_zipWith_sub _ rows hd ((scale u n).map (Scalar.mul · (ScalarNat.ofNat (is.length + 1))))
        (by simp [scale, hr i u hu])
      refine ⟨_, rfl, u, n, rows, hu, hn, hmap, by rw [h1, hr i u hu], fun j x hx => ?_⟩
      rw [if_neg h]
      exact h2 j _ (by simp [scale, hx])
  constructor
  · rw [← rowNorm_ok_iff e i]
    constructor
    · rintro ⟨v, hv⟩
      obtain ⟨u, hu, hv⟩ := Res.bind_eq_ok.mp hv
      obtain ⟨n, hn, hv⟩ := Res.bind_eq_ok.mp hv
      exact ⟨(u, n), by rw [hu, Res.ok_bind, hn]; rfl⟩
    · rintro ⟨_, hv⟩
      obtain ⟨u, hu, hv⟩ := Res.bind_eq_ok.mp hv
      obtain ⟨n, hn, hv⟩ := Res.bind_eq_ok.mp hv
      obtain ⟨v, hv, _⟩ := hall u n hu ((normAt_ok_iff e i n).mp hn)
      exact ⟨v, by rw [hu, Res.ok_bind, hn, Res.ok_bind, hv]⟩
  · intro v hv
    obtain ⟨u, hu, hv⟩ := Res.bind_eq_ok.mp hv
    obtain ⟨n, hn, hv⟩ := Res.bind_eq_ok.mp hv
    obtain ⟨v', hv', hs⟩ := hall u n hu ((normAt_ok_iff e i n).mp hn)
    cases hv.symm.trans hv'
    exact hs

omit [Scalar F] [ScalarNat F] [Storage S F] in
theorem floatsW [FloatBits F] (u : List F) : (W.each (fun x => W.f32 (FloatBits.toBits x)) u).Good ∧
    (W.each (fun x => W.f32 (FloatBits.toBits x)) u).bytes = floats (u.map FloatBits.toBits) := by
  refine ⟨W.good_each fun _ _ => W.good_f32 _, ?_⟩
  rw [W.bytes_each fun _ _ => W.good_f32 _, ← encodeF32s_eq]
  simp [Rd.encodeF32s, List.flatMap_map]

/-- C75, fastText: writing succeeds exactly if the numbers of words and dimensions fit into 32 bits, and all words have
norms. Then the file has the magic number, the version 12, the configuration (everything that is not known is zero), the
words with frequency zero, the flag for dense matrices and the matrix: the rows of the words without their n-grams, and
the rows of the buckets. -/
theorem c75_fasttext [FloatBits F] (e : Embeddings T FastTextSubwordVocab S F) (n : Nat) (ix : FastTextIndexer)
    (hix : BucketIndexer.newBuckets n = .ok ix) (h0 : 0 < n) (ws : List Str) (m M : Nat) (bow eow : Str)
    (hv : SubwordVocab.newWithBoundaries ws m M ix bow eow = .ok e.vocab) (hm : 1 ≤ m) (hM : m ≤ M)
    (hr : RowsSized e.storage) (ht : ∀ i, i < ws.length + n → ∃ v, embedding e.storage i = .ok v) :
    (e.writeFastText.Good ↔ ws.length < 2 ^ 32 ∧ (shape e.storage).2 < 2 ^ 32 ∧
      ∀ ns, e.norms = some ns → ws.length ≤ ns.inner.length) ∧
    (e.writeFastText.Good → ∃ vs bs : List (List F),
      vs.length = ws.length ∧ (∀ (i : Nat) (w : Str) (v : List F), ws[i]? = some w → vs[i]? = some v →
        IsTakenOut e (((NGramsSpec (bow ++ w ++ eow) m M).map (·.1)).map fun g => ws.length + HashSpec.fasttext g % n) i v) ∧
      bs.length = n ∧ (∀ (i : Nat) (v : List F), bs[i]? = some v → embedding e.storage (ws.length + i) = .ok v) ∧
      e.writeFastText.bytes =
        le32 793712314 ++ le32 12 ++
        ([(shape e.storage).2, 0, 0, 0, 0, 1, 1, 1, n, m, M, 0].flatMap le32 ++ le64 0) ++
        (le32 ws.length ++ le32 ws.length ++ le32 0 ++ le64 0 ++ le64 18446744073709551615 ++
          ws.flatMap fun w => utf8 w ++ [0] ++ le64 0 ++ [0]) ++
        [0] ++
        (le64 (shape e.storage).1 ++ le64 (shape e.storage).2 ++
          (vs.flatMap fun v => floats (v.map FloatBits.toBits)) ++ bs.flatMap fun v => floats (v.map FloatBits.toBits))) := by
  obtain ⟨hnd, _, hve⟩ := SubwordVocab.newWithBoundaries_eq_ok.mp hv
  have hlen : (indexMap ws).len = ws.length := (indexMap_len_iff ws).mpr hnd
  have hwl : Vocab.wordsLen e.vocab = ws.length := by rw [hve]; exact hlen
  obtain ⟨hb, hix'⟩ := FastTextIndexer.new_eq_ok.mp hix
  have hbk : BucketIndexer.buckets e.vocab.indexer = n := by
    rw [hve, hix']
    show (UInt32.ofNat n).toNat = n
    rw [UInt32.toNat_ofNat', Nat.mod_eq_of_lt (by omega)]
  have hvl : Vocab.vocabLen e.vocab = .ok (ws.length + n) := by
    rw [hve, hix']
    show Res.ok ((indexMap ws).len + (UInt32.ofNat n).toNat) = _
    rw [hlen, UInt32.toNat_ofNat', Nat.mod_eq_of_lt (by omega)]
  -- the words' rows
  let is : Str → List Nat := fun w =>
    ((NGramsSpec (bow ++ w ++ eow) m M).map (·.1)).map fun g => ws.length + HashSpec.fasttext g % n
  have hrow : ∀ w i, _ := fun w i => ftWordRow_spec e hr (is w) w
    (fasttext_indices n ix hix h0 ws m M bow eow e.vocab hv hm hM w)
    (fun j hj => by
      obtain ⟨g, _, rfl⟩ := List.mem_map.mp hj
      exact ht _ (by have := Nat.mod_lt (HashSpec.fasttext g) h0; omega)) i
  have hwords := W.each_ofRes (l := ws.zipIdx)
    (r := fun p => (do
      let v ← Storage.embedding e.storage p.2
      let n ← e.normAt p.2
      e.ftWordRow p.1 v n : Res (List F)))
    (g := fun _ u => W.each (fun x => W.f32 (FloatBits.toBits x)) u)
    (h := fun _ u => floats (u.map FloatBits.toBits)) fun _ u => floatsW u
  have hbuckets := W.each_ofRes (l := List.range' ws.length n)
    (r := fun i => Storage.embedding e.storage i)
    (g := fun _ u => W.each (fun x => W.f32 (FloatBits.toBits x)) u)
    (h := fun _ u => floats (u.map FloatBits.toBits)) fun _ u => floatsW u
  have hbg := hbuckets.1.mpr (fun i hi => ht i (by rw [List.mem_range'_1] at hi; omega))
  have hwg := hwords.1.trans (b := _) (c := ∀ ns, e.norms = some ns → ws.length ≤ ns.inner.length) (by
    constructor
    · intro hall ns hns
      cases hl : ws.length with
      | zero => omega
      | succ k =>
        have hm : (ws[k], k) ∈ ws.zipIdx := by
          rw [List.mem_zipIdx_iff_getElem?]; exact List.getElem?_eq_getElem (by omega)
        have := ((hrow _ _).1.mp (hall _ hm)).2 ns hns
        exact this
    · rintro hall ⟨w, i⟩ hm
      rw [List.mem_zipIdx_iff_getElem?] at hm
      have hi := (List.getElem?_eq_some_iff.mp hm).1
      refine (hrow w i).1.mpr ⟨ht i (by dsimp only at hi; omega), fun ns hns => ?_⟩
      have := hall ns hns
      dsimp only at hi
      omega)
  -- the vocabulary
  have hvoc : ((Embeddings.writeFtVocab e.vocab).Good ↔ ws.length < 2 ^ 32) ∧
      ((Embeddings.writeFtVocab e.vocab).Good → (Embeddings.writeFtVocab e.vocab).bytes =
        le32 ws.length ++ le32 ws.length ++ le32 0 ++ le64 0 ++ le64 18446744073709551615 ++
          ws.flatMap fun w => utf8 w ++ [0] ++ le64 0 ++ [0]) := by
    unfold Embeddings.writeFtVocab
    rw [hwl]
    by_cases hw : ws.length < 2 ^ 32
    · rw [if_pos hw]
      have hwords' : e.vocab.words = ws := by rw [hve]
      have hgw : ∀ w ∈ e.vocab.words, (Embeddings.writeFtWord w).Good := fun w _ => rfl
      have g0 : (W.u32 ws.length ++ W.u32 ws.length ++ W.u32 0 ++ W.u64 0 ++ W.u64 (2 ^ 64 - 1) : W).Good := rfl
      refine ⟨⟨fun _ => hw, fun _ => W.good_seq g0 (W.good_each hgw)⟩, fun _ => ?_⟩
      have h2 : ∀ w : Str, (Embeddings.writeFtWord w).bytes = utf8 w ++ [0] ++ le64 0 ++ [0] := by
        intro w
        unfold Embeddings.writeFtWord
        rw [W.bytes_seq (show (W.emit (utf8 w) ++ W.emit [0] ++ W.u64 0 : W).Good from rfl),
          W.bytes_seq (show (W.emit (utf8 w) ++ W.emit [0] : W).Good from rfl), W.bytes_seq (W.good_emit _)]
        simp only [W.bytes_emit, W.bytes_u64, leBytes8_eq]
      rw [W.bytes_seq g0, W.bytes_each hgw, hwords',
        W.bytes_seq (show (W.u32 ws.length ++ W.u32 ws.length ++ W.u32 0 ++ W.u64 0 : W).Good from rfl),
        W.bytes_seq (show (W.u32 ws.length ++ W.u32 ws.length ++ W.u32 0 : W).Good from rfl),
        W.bytes_seq (show (W.u32 ws.length ++ W.u32 ws.length : W).Good from rfl), W.bytes_seq (W.good_u32 _)]
      simp only [W.bytes_u32, W.bytes_u64, leBytes4_eq, leBytes8_eq, h2]
    · rw [if_neg hw]
      refine ⟨⟨fun h => (by cases h), fun h => absurd h hw⟩, fun h => by cases h⟩
  unfold Embeddings.writeFastText
  by_cases hd : (shape e.storage).2 < 2 ^ 32
  · have hcfg : e.ftConfig = .ok { FtConfig.new with bucket := n, dims := (shape e.storage).2, maxN := M, minN := m } := by
      unfold Embeddings.ftConfig
      rw [hbk, if_pos (by omega), if_pos hd, hve]
    rw [hcfg]
    simp only [W.ofRes]
    have g1 : (W.u32 fastTextMagic ++ W.u32 fastTextVersion ++
      writeFtConfig { FtConfig.new with bucket := n, dims := (shape e.storage).2, maxN := M, minN := m } : W).Good := rfl
    have hemb : (e.writeFtEmbeddings.Good ↔ ∀ ns, e.norms = some ns → ws.length ≤ ns.inner.length) ∧
        (e.writeFtEmbeddings.Good → ∃ vs bs : List (List F),
          vs.length = ws.length ∧ (∀ (i : Nat) (w : Str) (v : List F), ws[i]? = some w → vs[i]? = some v →
            IsTakenOut e (is w) i v) ∧
          bs.length = n ∧ (∀ (i : Nat) (v : List F), bs[i]? = some v → embedding e.storage (ws.length + i) = .ok v) ∧
          e.writeFtEmbeddings.bytes = le64 (shape e.storage).1 ++ le64 (shape e.storage).2 ++
          (vs.flatMap fun v => floats (v.map FloatBits.toBits)) ++ bs.flatMap fun v => floats (v.map FloatBits.toBits)) := by
      unfold Embeddings.writeFtEmbeddings
      rw [hvl, hwl, show e.vocab.words = ws by rw [hve]]
      rw [show ∀ f : Nat → W, W.ofRes (.ok (ws.length + n)) f = f (ws.length + n) from fun _ => rfl, Nat.add_sub_cancel_left]
      have g2 : (W.u64 (shape e.storage).1 ++ W.u64 (shape e.storage).2 : W).Good := rfl
      refine ⟨?_, fun hg => ?_⟩
      · rw [W.good_seq_iff, W.good_seq_iff]
        exact ⟨fun h => hwg.mp h.1.2, fun h => ⟨⟨g2, hwg.mpr h⟩, hbg⟩⟩
      · have hg1 := (W.good_seq_iff.mp hg).1
        have hg2 := (W.good_seq_iff.mp hg1).2
        obtain ⟨vs, h1, h2⟩ := hwords.2 hg2
        obtain ⟨bs, h3, h4⟩ := hbuckets.2 hbg
        have hvsl : vs.length = ws.length := by simpa using (congrArg List.length h1).symm
        have hbsl : bs.length = n := by simpa using (congrArg List.length h3).symm
        refine ⟨vs, bs, hvsl, ?_, hbsl, ?_, ?_⟩
        · intro i w v hw hvi
          have := congrArg (·[i]?) h1
          simp only [List.getElem?_map, hvi, List.getElem?_zipIdx, hw, Option.map_some, Option.some.injEq,
            Nat.zero_add] at this
          exact (hrow w i).2 v this
        · intro i v hvi
          have hi : i < n := by have := (List.getElem?_eq_some_iff.mp hvi).1; omega
          have := congrArg (·[i]?) h3
          simp only [List.getElem?_map, hvi, List.getElem?_range' hi, Option.map_some, Option.some.injEq,
            Nat.one_mul] at this
          exact this
        · rw [W.bytes_seq hg1, W.bytes_seq g2, h2, h4, W.bytes_seq (W.good_u64 _)]
          simp only [W.bytes_u64, leBytes8_eq]
          have hz : ∀ {α : Type} (l : List α) (vs : List (List F)), l.length = vs.length →
              ((l.zip vs).flatMap fun p => floats (p.2.map FloatBits.toBits)) =
                vs.flatMap fun v => floats (v.map FloatBits.toBits) := by
            intro α l vs hl
            conv => rhs; rw [← List.map_snd_zip (l₁ := l) (l₂ := vs) (by omega)]
            rw [List.flatMap_map]
          rw [hz _ _ (by simp [hvsl]), hz _ _ (by simp [hbsl])]
    refine ⟨?_, fun hg => ?_⟩
    · rw [W.good_seq_iff, W.good_seq_iff, W.good_seq_iff, hemb.1, hvoc.1]
      exact ⟨fun h => ⟨h.1.1.2, hd, h.2⟩, fun h => ⟨⟨⟨g1, h.1⟩, W.good_emit _⟩, h.2.2⟩⟩
    · obtain ⟨h1, h2⟩ := W.good_seq_iff.mp hg
      have h3 := (W.good_seq_iff.mp h1).1
      obtain ⟨vs, bs, h4, h5, h6, h7, h8⟩ := hemb.2 h2
      refine ⟨vs, bs, h4, h5, h6, h7, ?_⟩
      rw [W.bytes_seq h1, W.bytes_seq h3, W.bytes_seq g1, h8, hvoc.2 (W.good_seq_iff.mp h3).2, W.bytes_emit]
      congr 3
      show List.flatten [leBytes 4 793712314, leBytes 4 12, leBytes 4 (shape e.storage).2, leBytes 4 0, leBytes 4 0, leBytes 4 0,
        leBytes 4 0, leBytes 4 1, leBytes 4 1, leBytes 4 1, leBytes 4 n, leBytes 4 m, leBytes 4 M, leBytes 4 0, leBytes 8 0] = _
      simp only [leBytes4_eq, leBytes8_eq, List.flatten_cons, List.flatten_nil, List.flatMap_cons, List.flatMap_nil,
        List.append_assoc, List.append_nil]
  · have hcfg : e.ftConfig = .err .overflow := by
      unfold Embeddings.ftConfig
      rw [hbk, if_pos (by omega), if_neg hd]
    rw [hcfg]
    exact ⟨⟨fun h => (by cases h), fun h => absurd h.2.1 hd⟩, fun h => by cases h⟩

end

/-! ### Decimal numbers are unique -/

theorem printNatF_fuel (f g n : Nat) (hf : n < f) (hg : n < g) : printNatF f n = printNatF g n := by
  induction f generalizing g n with
  | zero => omega
  | succ f ih =>
    cases g with
    | zero => omega
    | succ g =>
      unfold printNatF
      by_cases h : n < 10
      · rw [if_pos h, if_pos h]
      · rw [if_neg h, if_neg h, ih g (n / 10) (by omega) (by omega)]

theorem printNat_snoc (n d : Nat) (hn : 0 < n) (hd : d < 10) :
    printNat (10 * n + d) = printNat n ++ [Char.ofNat (48 + d)] := by
  unfold printNat
  rw [printNatF, if_neg (by omega), show (10 * n + d) / 10 = n by omega, show (10 * n + d) % 10 = d by omega,
    printNatF_fuel _ (n + 1) n (by omega) (by omega)]

/-- The decimal number of `n` is unique. -/
theorem Shown.unique {s : Str} {n : Nat} (h : Shown s n) : s = printNat n := by
  obtain ⟨h, h0⟩ := h
  have hd0 : ∀ d < 10, Char.ofNat (48 + d) = '0' → d = 0 := by decide
  have key : ∀ {s : Str} {n : Nat}, Decimal s n → s.head? ≠ some '0' → s = printNat n ∧ 0 < n := by
    intro s n h
    induction h with
    | one d hd =>
      intro hh
      have h1 : d ≠ 0 := by rintro rfl; exact hh rfl
      exact ⟨by unfold printNat; rw [printNatF, if_pos hd, Nat.mod_eq_of_lt hd]; rfl, by omega⟩
    | snoc d hs hd ih =>
      intro hh
      have hne := hs.digits.1
      obtain ⟨rfl, hpos⟩ := ih (fun h1 => hh (by
        cases hc : ‹Str› with
        | nil => exact absurd hc hne
        | cons c t => rw [hc] at h1; exact h1))
      exact ⟨(printNat_snoc _ d hpos hd).symm, by omega⟩
  by_cases hh : s.head? = some '0'
  · rw [h0 hh] at h ⊢
    have hv := h.digits.2.2
    have : n = 0 := hv.symm.trans rfl
    subst this
    rfl
  · exact (key h hh).1

/-! ## Examples -/

example : Shown "120".toList 120 :=
  ⟨.snoc (s := ['1', '2']) 0 (.snoc (s := ['1']) 2 (.one 1 (by omega)) (by omega)) (by omega), by decide⟩

section
attribute [local instance] exampleScalar exampleFloatText exampleScalarNat

/-- Two words with rows and norms. -/
example : ∃ e : Embeddings Str SimpleVocab (NdArray F32) F32, Vocab.wordsLen e.vocab = 2 ∧ e.norms ≠ none ∧ HasRows e ∧
    (e.writeTextDims false).bytes = ascii "2 2\na 1 2\nbc 3 4\n" ∧
    (e.writeText false).bytes = ascii "a 1 2\nbc 3 4\n" ∧
    (e.writeWord2vec false).bytes = ascii "2 2\na " ++ [1, 0, 0, 0, 2, 0, 0, 0, 10] ++ ascii "bc " ++
      [3, 0, 0, 0, 4, 0, 0, 0, 10] := by
  refine ⟨⟨none, ⟨⟨2, [[1, 2], [3, 4]]⟩⟩, ⟨indexMap [['a'], ['b', 'c']], [['a'], ['b', 'c']]⟩, some ⟨[5, 6]⟩⟩, by decide +kernel,
    nofun, ?_, by decide +kernel, by decide +kernel, by decide +kernel⟩
  intro i hi
  refine ⟨?_, fun ns hns => by cases hns; exact hi⟩
  match i, hi with
  | 0, _ => exact ⟨_, rfl⟩
  | 1, _ => exact ⟨_, rfl⟩

/-- The hypotheses of `c75_floret` hold for embeddings with a word. -/
example : FloretIndexer.new 2 3 7 = .ok ⟨2, 7, 3⟩ ∧
    SubwordVocab.newWithBoundaries [['w']] 3 6 (⟨2, 7, 3⟩ : FloretIndexer) ['['] [']', 'é'] = .ok exampleFloret.vocab ∧
    [['w']].length ≤ exampleFloret.storage.inner.rows.length := by
  decide +kernel

/-- Embeddings with a word and a bucket. -/
def exampleFtWritten : Embeddings Str FastTextSubwordVocab (NdArray F32) F32 :=
  ⟨none, ⟨⟨1, [[9], [2]]⟩⟩, ⟨['['], [']'], ⟨1⟩, indexMap [['a']], [['a']], 3, 6⟩, some ⟨[5]⟩⟩

/-- The hypotheses of `c75_fasttext` hold for embeddings with other boundary markers than the default. -/
example : BucketIndexer.newBuckets 1 = .ok (⟨1⟩ : FastTextIndexer) ∧
    SubwordVocab.newWithBoundaries [['a']] 3 6 (⟨1⟩ : FastTextIndexer) ['['] [']'] = .ok exampleFtWritten.vocab ∧
    RowsSized exampleFtWritten.storage ∧ (∀ i, i < [['a']].length + 1 → ∃ v, embedding exampleFtWritten.storage i = .ok v) ∧
    (shape exampleFtWritten.storage).2 < 2 ^ 32 ∧
    (∀ ns, exampleFtWritten.norms = some ns → [['a']].length ≤ ns.inner.length) := by
  refine ⟨by decide +kernel, by decide +kernel, ?_, ?_, by decide, ?_⟩
  · intro i v h
    have : exampleFtWritten.storage.inner.rows[i]? = some v := unwrap_eq_ok.mp h
    have hm := List.mem_of_getElem? this
    simp only [exampleFtWritten, List.mem_cons, List.not_mem_nil, or_false] at hm
    rcases hm with rfl | rfl <;> rfl
  · intro i hi
    match i, hi with
    | 0, _ => exact ⟨_, rfl⟩
    | 1, _ => exact ⟨_, rfl⟩
  · intro ns h; cases h; decide

end

end FF
