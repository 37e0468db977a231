import Mathlib.Data.List.Perm.Basic
import Mathlib.Data.List.Nodup
import Verif.Props.LineEnds
import Verif.Props.Others
import Verif.Props.Concat

/-!
# C123: the order of the lines of text files
-/

namespace FF

open Rd Embeddings

/-! ## Queries depend on the words and their vectors only -/

section
open Storage
variable {T T' V V' S S' F : Type} [Vocab V] [Vocab V'] [Storage S F] [Storage S' F] [StorageView S F] [StorageView S' F]
  [Scalar F] [ScalarOrd F] [LawfulScalarOrd F]

omit [Storage S F] [Storage S' F] in
theorem similarity_perm {e : Embeddings T V S F} {e' : Embeddings T' V' S' F} (hv : WordsOk e.vocab) (hv' : WordsOk e'.vocab)
    {m m' : Mat F} (hm : StorageView.view e.storage = .ok m) (hm' : StorageView.view e'.storage = .ok m')
    (hp : ((Vocab.words e.vocab).zip m.rows).Perm ((Vocab.words e'.vocab).zip m'.rows))
    (hl : (Vocab.words e.vocab).length ≤ m.nrows) (hl' : (Vocab.words e'.vocab).length ≤ m'.nrows) (hc : m.cols = m'.cols)
    (q : List F) (skip : List Str) (limit : Nat) (bs : Option Nat) :
    e.similarity q skip limit bs = e'.similarity q skip limit bs := by
  have hlen : (Vocab.words e.vocab).length = (Vocab.words e'.vocab).length := by
    have := hp.length_eq
    rw [List.length_zip, List.length_zip] at this
    unfold Mat.nrows at hl hl'
    omega
  have hnil : Vocab.words e.vocab = [] ↔ Vocab.words e'.vocab = [] := by
    rw [← List.length_eq_zero_iff, hlen, List.length_eq_zero_iff]
  have hcp : (candidates (Vocab.words e.vocab) m.rows q skip).Perm (candidates (Vocab.words e'.vocab) m'.rows q skip) :=
    (hp.filter _).map _
  have hcn : candidates (Vocab.words e.vocab) m.rows q skip = [] ↔ candidates (Vocab.words e'.vocab) m'.rows q skip = [] := by
    rw [← List.length_eq_zero_iff, hcp.length_eq, List.length_eq_zero_iff]
  obtain ⟨i1, p1⟩ := similarity_ok_iff e q skip limit bs m hm hv.len
  obtain ⟨i2, p2⟩ := similarity_ok_iff e' q skip limit bs m' hm' hv'.len
  have hiff : (∃ r, e.similarity q skip limit bs = .ok r) ↔ ∃ r, e'.similarity q skip limit bs = .ok r := by
    rw [i1, i2, hlen, hc, hnil, hcn]
    simp only [hcp.mem_iff, hl', hlen ▸ hl]
  by_cases h : ∃ r, e.similarity q skip limit bs = .ok r
  · obtain ⟨r, hr⟩ := h
    obtain ⟨r', hr'⟩ := hiff.mp ⟨r, hr⟩
    rcases Nat.eq_zero_or_pos limit with rfl | h1
    · obtain ⟨-, -, b1, -, -, c1⟩ := i1.mp ⟨r, hr⟩
      obtain ⟨-, -, b2, -, -, c2⟩ := i2.mp ⟨r', hr'⟩
      rw [similarity_eq e q skip 0 bs (by unfold BatchOk; rw [hv.len]; exact b1) hv.len,
        similarity_eq e' q skip 0 bs (by unfold BatchOk; rw [hv'.len]; exact b2) hv'.len, hm, hm']
      simp only [Res.ok_bind, c1 rfl, c2 rfl, hc, hv.len, hv'.len, hl, hl']
      rw [show (Vocab.words e.vocab).isEmpty = (Vocab.words e'.vocab).isEmpty by
        rw [Bool.eq_iff_iff, List.isEmpty_iff, List.isEmpty_iff]; exact hnil]
    · obtain ⟨m1, g1, -, -, -, -, -, t1⟩ := similarity_ok_top hv h1 hr
      obtain ⟨m2, g2, -, -, -, -, -, t2⟩ := similarity_ok_top hv' h1 hr'
      rw [hm] at g1; cases g1
      rw [hm'] at g2; cases g2
      rw [hr, hr', t2.unique (t1.perm hcp)]
  · rw [p1 h, p2 fun h' => h (hiff.mpr h')]

/-- Specification: two embeddings answer all similarity queries and analogies in the same way. -/
def SameQueries (e : Embeddings T V S F) (e' : Embeddings T' V' S' F) : Prop :=
  ∀ (limit : Nat) (bs : Option Nat),
    (∀ w, e.wordSimilarity w limit bs = e'.wordSimilarity w limit bs) ∧
    (∀ q, e.embeddingSimilarity q limit bs = e'.embeddingSimilarity q limit bs) ∧
    (∀ q skip, e.embeddingSimilarityMasked q limit skip bs = e'.embeddingSimilarityMasked q limit skip bs) ∧
    (∀ a b c, e.analogy a b c limit bs = e'.analogy a b c limit bs) ∧
    ∀ a b c r1 r2 r3, e.analogyMasked a b c r1 r2 r3 limit bs = e'.analogyMasked a b c r1 r2 r3 limit bs

/-- **C123** (queries). Two embeddings, with vocabularies and storages of any kind, whose words have the same rows, in any
order, and which have the same vectors for all other words, answer all queries in the same way: with the same results,
or with a panic. -/
theorem c123_queries (e : Embeddings T V S F) (e' : Embeddings T' V' S' F) (hv : WordsOk e.vocab) (hv' : WordsOk e'.vocab)
    (m m' : Mat F) (hm : StorageView.view e.storage = .ok m) (hm' : StorageView.view e'.storage = .ok m')
    (hp : ((Vocab.words e.vocab).zip m.rows).Perm ((Vocab.words e'.vocab).zip m'.rows))
    (hl : (Vocab.words e.vocab).length ≤ m.nrows) (hl' : (Vocab.words e'.vocab).length ≤ m'.nrows) (hc : m.cols = m'.cols)
    (he : ∀ w, e.embedding w = e'.embedding w) : SameQueries e e' := by
  intro limit bs
  have key := fun q skip => similarity_perm hv hv' hm hm' hp hl hl' hc q skip limit bs
  have hmask : ∀ q skip, e.embeddingSimilarityMasked q limit skip bs = e'.embeddingSimilarityMasked q limit skip bs := by
    intro q skip
    unfold embeddingSimilarityMasked
    rw [key]
  have hana : ∀ a b c r1 r2 r3, e.analogyMasked a b c r1 r2 r3 limit bs = e'.analogyMasked a b c r1 r2 r3 limit bs := by
    intro a b c r1 r2 r3
    unfold analogyMasked lookupWords3
    simp only [he, key]
  refine ⟨fun w => ?_, fun q => hmask q [], hmask, fun a b c => hana a b c true true true, hana⟩
  unfold wordSimilarity
  simp only [he, key]

end

/-! ## Tables -/

section
variable {T F : Type} [Scalar F]

/-- Embeddings with a simple vocabulary from a list of words with their vectors and norms. -/
def ofTable (t : List (Str × List F × F)) (k : Nat) (norms : Bool) : Embeddings T SimpleVocab (NdArray F) F :=
  ⟨none, ⟨⟨k, t.map (·.2.1)⟩⟩, ⟨indexMap (t.map (·.1)), t.map (·.1)⟩,
    if norms then some ⟨t.map (·.2.2)⟩ else none⟩

omit [Scalar F] in
theorem table_row {t t' : List (Str × List F × F)} (hp : t.Perm t') (hn : (t.map (·.1)).Nodup) {i j : Nat} {w : Str}
    (hi : (t.map (·.1))[i]? = some w) (hj : (t'.map (·.1))[j]? = some w) : ∃ r, t[i]? = some r ∧ t'[j]? = some r := by
  rw [List.getElem?_map, Option.map_eq_some_iff] at hi hj
  obtain ⟨r, h1, rfl⟩ := hi
  obtain ⟨r', h2, h3⟩ := hj
  have m1 : r ∈ t := List.mem_of_getElem? h1
  have m2 : r' ∈ t := hp.mem_iff.mpr (List.mem_of_getElem? h2)
  obtain rfl : r' = r := List.inj_on_of_nodup_map hn m2 m1 h3
  exact ⟨r', h1, h2⟩

omit [Scalar F] in
theorem table_same {t t' : List (Str × List F × F)} (hp : t.Perm t') (hn : (t.map (·.1)).Nodup) (k : Nat) (norms : Bool) :
    SameVectors (ofTable t k norms : Embeddings T SimpleVocab (NdArray F) F)
      (ofTable t' k norms : Embeddings T SimpleVocab (NdArray F) F) (t.map (·.1)) (t'.map (·.1)) := by
  refine ⟨rfl, fun i j w hi hj => ?_, fun i j w hi hj => ?_, fun n => ?_⟩
  · obtain ⟨r, h1, h2⟩ := table_row hp hn hi hj
    show Res.unwrap (t.map (·.2.1))[i]? = Res.unwrap (t'.map (·.2.1))[j]?
    rw [List.getElem?_map, List.getElem?_map, h1, h2]
  · obtain ⟨r, h1, h2⟩ := table_row hp hn hi hj
    cases norms with
    | false => rfl
    | true =>
      show some (t.map (·.2.2))[i]? = some (t'.map (·.2.2))[j]?
      rw [List.getElem?_map, List.getElem?_map, h1, h2]
  · show Res.unwrap (t.map (·.2.1))[(t.map (·.1)).length + n]? = Res.unwrap (t'.map (·.2.1))[(t'.map (·.1)).length + n]?
    rw [List.getElem?_eq_none (by simp), List.getElem?_eq_none (by simp)]

/-- Specification: two embeddings have the same words, in any order, and the same answers for all words, known or not, and
for all queries. -/
def SameButOrder [ScalarOrd F] (e e' : Embeddings T SimpleVocab (NdArray F) F) : Prop :=
  (Vocab.words e.vocab).Perm (Vocab.words e'.vocab) ∧ e.dims = e'.dims ∧ (∀ w, EqualAnswers e e' w) ∧ SameQueries e e'

theorem table_answers [ScalarOrd F] [LawfulScalarOrd F] {t t' : List (Str × List F × F)} (hp : t.Perm t')
    (hn : (t.map (·.1)).Nodup) (k : Nat) (norms : Bool) :
    SameButOrder (ofTable t k norms : Embeddings T SimpleVocab (NdArray F) F) (ofTable t' k norms) := by
  have hn' : (t'.map (·.1)).Nodup := (hp.map _).nodup_iff.mp hn
  have hv : SimpleVocab.new (t.map (·.1)) = .ok (ofTable t k norms : Embeddings T SimpleVocab (NdArray F) F).vocab :=
    SimpleVocab.new_eq_ok.mpr ⟨hn, rfl⟩
  have hv' : SimpleVocab.new (t'.map (·.1)) = .ok (ofTable t' k norms : Embeddings T SimpleVocab (NdArray F) F).vocab :=
    SimpleVocab.new_eq_ok.mpr ⟨hn', rfl⟩
  have hans : ∀ w, EqualAnswers (ofTable t k norms : Embeddings T SimpleVocab (NdArray F) F) (ofTable t' k norms) w :=
    fun w => c116_simple _ _ _ _ hv hv' (table_same hp hn k norms) w (hp.map _).mem_iff
  have hok : ∀ {t : List (Str × List F × F)}, (t.map (·.1)).Nodup →
      WordsOk (ofTable t k norms : Embeddings T SimpleVocab (NdArray F) F).vocab := fun hn =>
    ⟨(indexMap_len_iff _).mpr hn, hn⟩
  refine ⟨hp.map _, rfl, hans, ?_⟩
  refine c123_queries _ _ (hok hn) (hok hn') ⟨k, t.map (·.2.1)⟩ ⟨k, t'.map (·.2.1)⟩ rfl rfl ?_ ?_ ?_ rfl fun w => (hans w).1
  · show ((t.map (·.1)).zip (t.map (·.2.1))).Perm ((t'.map (·.1)).zip (t'.map (·.2.1)))
    rw [List.zip_map', List.zip_map']
    exact hp.map _
  · show (t.map (·.1)).length ≤ (t.map (·.2.1)).length
    simp
  · show (t'.map (·.1)).length ≤ (t'.map (·.2.1)).length
    simp

end

/-! ## Files -/

section
variable {T F : Type} [Scalar F] [FloatText F]

omit [Scalar F] in
theorem linesHave_perm {lossy : Bool} {la lb : List Bytes} (hp : la.Perm lb) {ra : List (Str × List F)}
    (h : LinesHave lossy la ra) : ∃ rb, LinesHave lossy lb rb ∧ ra.Perm rb := by
  have h1 := Res.mapM_eq_ok_iff.mp (linesHave_iff.mpr h)
  rcases linesHave_or (F := F) lossy lb with ⟨rb, hb⟩ | ⟨l, hl, hno⟩
  · refine ⟨rb, hb, ?_⟩
    have h2 := Res.mapM_eq_ok_iff.mp (linesHave_iff.mpr hb)
    have := hp.map (readTextLine (F := F) lossy)
    rw [h1, h2] at this
    exact (List.map_perm_map_iff fun x y hxy => Res.ok.inj hxy).mp this
  · obtain ⟨i, hi⟩ := List.mem_iff_getElem?.mp (hp.mem_iff.mpr hl)
    obtain ⟨hlt, -⟩ := List.getElem?_eq_some_iff.mp hi
    exact absurd (h.2 i l _ hi (List.getElem?_eq_getElem (by rw [← h.1]; exact hlt))) (hno _)

/-- Specification: all lines have the same number of components. -/
def Even (F : Type) [FloatText F] (lossy : Bool) (ls : List Bytes) : Prop :=
  ∃ k, ∀ l ∈ ls, ∀ r : Str × List F, LineHas lossy l r → r.2.length = k

/-- Specification: two outcomes of the same kind. -/
def SameKind {α : Type} (x y : Res α) : Prop :=
  ((∃ v, x = .ok v) ↔ ∃ v, y = .ok v) ∧ (x = .panic ↔ y = .panic) ∧ ((∃ e, x = .err e) ↔ ∃ e, y = .err e)

theorem SameKind.of {α : Type} {x y : Res α} (h1 : (∃ v, x = .ok v) ↔ ∃ v, y = .ok v) (h2 : x = .panic ↔ y = .panic) :
    SameKind x y := by
  refine ⟨h1, h2, ?_⟩
  cases x <;> cases y <;> simp_all

theorem SameKind.bind {α β : Type} {x y : Res α} {f : α → Res β} (h : SameKind x y) (hf : ∀ v, x = .ok v ∨ y = .ok v → ∃ w, f v = .ok w) :
    SameKind (x >>= f) (y >>= f) := by
  cases x with
  | ok v =>
    obtain ⟨w, hw⟩ := h.1.mp ⟨v, rfl⟩
    subst hw
    obtain ⟨a, ha⟩ := hf v (.inl rfl)
    obtain ⟨b, hb⟩ := hf w (.inr rfl)
    simp only [Res.ok_bind, ha, hb]
    exact .of (by simp) (by simp)
  | err x =>
    obtain ⟨w, hw⟩ := h.2.2.mp ⟨x, rfl⟩
    subst hw
    exact .of (by constructor <;> rintro ⟨_, h⟩ <;> cases h) (by constructor <;> intro h <;> cases h)
  | panic =>
    rw [h.2.1.mp rfl]
    exact .of Iff.rfl Iff.rfl

omit [Scalar F] [FloatText F] in
theorem flatten_length_perm {ra rb : List (Str × List F)} (h : ra.Perm rb) :
    (ra.map (·.2)).flatten.length = (rb.map (·.2)).flatten.length := ((h.map _).flatten).length_eq

omit [Scalar F] in
theorem readEmbeds_kind {shape : Option (Nat × Nat)} (hfit : ShapeFits shape) {lossy : Bool} {d d' : Bytes} {pos pos' : Nat}
    {la lb : List Bytes} (h1 : IsLines (d.drop pos) la) (h2 : IsLines (d'.drop pos') lb) (hp : la.Perm lb) :
    SameKind (readEmbeds shape lossy d pos : Res (Embeddings T SimpleVocab (NdArray F) F)) (readEmbeds shape lossy d' pos') := by
  have ok : ∀ {d d' : Bytes} {pos pos' : Nat} {la lb : List Bytes}, IsLines (d.drop pos) la → IsLines (d'.drop pos') lb →
      la.Perm lb → (∃ e : Embeddings T SimpleVocab (NdArray F) F, readEmbeds shape lossy d pos = .ok e) →
      ∃ e : Embeddings T SimpleVocab (NdArray F) F, readEmbeds shape lossy d' pos' = .ok e := by
    rintro d d' pos pos' la lb h1 h2 hp ⟨e, he⟩
    obtain ⟨ra, k, l1, n1, d1, f1, s1, -⟩ := (c50_accepts shape hfit lossy d pos la h1 e).mp he
    obtain ⟨rb, l2, hr⟩ := linesHave_perm hp l1
    refine ⟨_, (c50_accepts shape hfit lossy d' pos' lb h2 _).mpr ⟨rb, k, l2, ?_, (hr.map _).nodup_iff.mp d1, ?_, ?_, rfl⟩⟩
    · rintro rfl; exact n1 hr.eq_nil
    · rw [← flatten_length_perm hr, f1, hr.length_eq]
    · rw [← hr.length_eq]; exact s1
  have panic : ∀ {d d' : Bytes} {pos pos' : Nat} {la lb : List Bytes}, IsLines (d.drop pos) la → IsLines (d'.drop pos') lb →
      la.Perm lb → (readEmbeds shape lossy d pos : Res (Embeddings T SimpleVocab (NdArray F) F)) = .panic →
      (readEmbeds shape lossy d' pos' : Res (Embeddings T SimpleVocab (NdArray F) F)) = .panic := by
    intro d d' pos pos' la lb h1 h2 hp he
    refine (c50_panics shape hfit lossy d' pos' lb h2).mpr ?_
    rcases (c50_panics shape hfit lossy d pos la h1).mp he with ⟨rfl, h⟩ | ⟨ra, k, l1, n1, f1, s1, d1⟩
    · exact .inl ⟨hp.symm.eq_nil, h⟩
    · obtain ⟨rb, l2, hr⟩ := linesHave_perm hp l1
      refine .inr ⟨rb, k, l2, ?_, ?_, ?_, fun h => d1 ((hr.map _).nodup_iff.mpr h)⟩
      · rintro rfl; exact n1 hr.eq_nil
      · rw [← flatten_length_perm hr, f1, hr.length_eq]
      · rw [← hr.length_eq]; exact s1
  exact .of ⟨ok h1 h2 hp, ok h2 h1 hp.symm⟩ ⟨panic h1 h2 hp, panic h2 h1 hp.symm⟩

/-- What is read from a table with rows of the same length. -/
theorem readEmbeds_even {shape : Option (Nat × Nat)} (hfit : ShapeFits shape) {lossy : Bool} {d : Bytes} {pos : Nat}
    {la : List Bytes} (h1 : IsLines (d.drop pos) la) (hev : Even F lossy la) {e : Embeddings T SimpleVocab (NdArray F) F}
    (he : readEmbeds shape lossy d pos = .ok e) :
    ∃ (ra : List (Str × List F)) (k : Nat), LinesHave lossy la ra ∧ (ra.map (·.1)).Nodup ∧ (∀ r ∈ ra, r.2.length = k) ∧
      e = ofTable (ra.map fun r => (r.1, r.2, Scalar.zero)) k false := by
  obtain ⟨ra, k, l1, n1, d1, f1, -, rfl⟩ := (c50_accepts shape hfit lossy d pos la h1 e).mp he
  obtain ⟨k', hk⟩ := hev
  have hall : ∀ r ∈ ra, r.2.length = k' := by
    intro r hr
    obtain ⟨i, hi⟩ := List.mem_iff_getElem?.mp hr
    obtain ⟨hlt, -⟩ := List.getElem?_eq_some_iff.mp hi
    have hl := List.getElem?_eq_getElem (l := la) (i := i) (by rw [l1.1]; exact hlt)
    exact hk _ (List.mem_of_getElem? hl) r (l1.2 i _ r hl hi)
  have hsum : ∀ l : List (Str × List F), (∀ r ∈ l, r.2.length = k') → (l.map (·.2)).flatten.length = l.length * k' := by
    intro l hl
    induction l with
    | nil => simp
    | cons r l ih =>
      rw [List.map_cons, List.flatten_cons, List.length_append, ih fun x hx => hl x (by simp [hx]), hl r (by simp),
        List.length_cons, Nat.add_mul, Nat.one_mul, Nat.add_comm]
  obtain rfl : k' = k := by
    have := hsum ra hall
    rw [f1] at this
    exact (Nat.eq_of_mul_eq_mul_left (List.length_pos_iff.mpr n1) this).symm
  refine ⟨ra, k', l1, d1, hall, ?_⟩
  have hwf : (⟨k', ra.map (·.2)⟩ : Mat F).WF := by
    intro r hr
    obtain ⟨x, hx, rfl⟩ := List.mem_map.mp hr
    exact hall x hx
  have hm := Mat.ofFlat_flatten hwf
  simp only [Mat.nrows, List.length_map] at hm
  rw [hm]
  simp [ofTable, List.map_map, Function.comp_def]

omit [FloatText F] in
theorem normalize_table {t : List (Str × List F)} {k : Nat} (hn : (t.map (·.1)).Nodup) :
    normalizeRead (ofTable (t.map fun r => (r.1, r.2, Scalar.zero)) k false : Embeddings T SimpleVocab (NdArray F) F) =
      .ok (ofTable (t.map fun r => (r.1, (l2Normalize r.2).1, (l2Normalize r.2).2)) k true) := by
  rw [normalizeRead_eq]
  · simp [ofTable, List.map_map, Function.comp_def]
  · show Res.ok (indexMap _).len = Res.ok (List.map _ _).length
    rw [(indexMap_len_iff _).mpr (by simpa [List.map_map, Function.comp_def] using hn)]
    simp

theorem normalizeRead_total {shape : Option (Nat × Nat)} (hfit : ShapeFits shape) {lossy : Bool} {d : Bytes} {pos : Nat}
    {e : Embeddings T SimpleVocab (NdArray F) F} (he : readEmbeds shape lossy d pos = .ok e) :
    ∃ e' : Embeddings T SimpleVocab (NdArray F) F, normalizeRead e = .ok e' := by
  obtain ⟨ra, k, l1, n1, d1, f1, -, rfl⟩ := (c50_accepts shape hfit lossy d pos _ (textLines_spec _) e).mp he
  refine ⟨_, normalizeRead_eq ?_⟩
  show Res.ok (indexMap _).len = Res.ok (Mat.ofFlat _ _ _).nrows
  rw [(indexMap_len_iff _).mpr d1, Mat.ofFlat_nrows, List.length_map]

variable [ScalarOrd F] [LawfulScalarOrd F]

/-- The same lines in another order. -/
theorem readEmbeds_order {shape : Option (Nat × Nat)} (hfit : ShapeFits shape) {lossy : Bool} {d d' : Bytes} {pos pos' : Nat}
    {la lb : List Bytes} (h1 : IsLines (d.drop pos) la) (h2 : IsLines (d'.drop pos') lb) (hp : la.Perm lb)
    (hev : Even F lossy la) {e e' : Embeddings T SimpleVocab (NdArray F) F} (he : readEmbeds shape lossy d pos = .ok e)
    (he' : readEmbeds shape lossy d' pos' = .ok e') :
    SameButOrder e e' ∧ ∀ n n', normalizeRead e = .ok n → normalizeRead e' = .ok n' → SameButOrder n n' := by
  have hev' : Even F lossy lb := by
    obtain ⟨k, hk⟩ := hev
    exact ⟨k, fun l hl => hk l (hp.mem_iff.mpr hl)⟩
  obtain ⟨ra, k, l1, n1, a1, rfl⟩ := readEmbeds_even hfit h1 hev he
  obtain ⟨rb, k', l2, n2, a2, rfl⟩ := readEmbeds_even hfit h2 hev' he'
  obtain ⟨rb', l3, hr⟩ := linesHave_perm hp l1
  obtain rfl : rb = rb' := Res.ok.inj ((linesHave_iff.mpr l2).symm.trans (linesHave_iff.mpr l3))
  have hne : ra ≠ [] := by
    obtain ⟨rc, kc, lc, nc, -⟩ := (c50_accepts shape hfit lossy d pos la h1 _).mp he
    obtain rfl : ra = rc := Res.ok.inj ((linesHave_iff.mpr l1).symm.trans (linesHave_iff.mpr lc))
    exact nc
  obtain rfl : k = k' := by
    obtain ⟨r, hr'⟩ := List.exists_mem_of_ne_nil ra hne
    rw [← a1 r hr', ← a2 r (hr.mem_iff.mp hr')]
  refine ⟨table_answers (hr.map _) (by simpa [List.map_map, Function.comp_def] using n1) k false, fun n n' hn hn' => ?_⟩
  rw [normalize_table n1] at hn
  rw [normalize_table n2] at hn'
  cases hn
  cases hn'
  exact table_answers (hr.map _) (by simpa [List.map_map, Function.comp_def] using n1) k true

omit [LawfulScalarOrd F] in
/-- Both readers of a format: outcomes of the same kind, and the same embeddings but for the order. -/
theorem order_both {lossy : Bool} {la : List Bytes} {x x' : Res (Embeddings T SimpleVocab (NdArray F) F)}
    (hk : SameKind x x') (ht : ∀ e, x = .ok e ∨ x' = .ok e → ∃ n : Embeddings T SimpleVocab (NdArray F) F, normalizeRead e = .ok n)
    (ho : Even F lossy la → ∀ e e', x = .ok e → x' = .ok e' →
      SameButOrder e e' ∧ ∀ n n', normalizeRead e = .ok n → normalizeRead e' = .ok n' → SameButOrder n n') :
    SameKind x x' ∧ SameKind (x >>= normalizeRead) (x' >>= normalizeRead) ∧ (Even F lossy la →
      (∀ e e', x = .ok e → x' = .ok e' → SameButOrder e e') ∧
      ∀ n n', x >>= normalizeRead = .ok n → x' >>= normalizeRead = .ok n' → SameButOrder n n') := by
  refine ⟨hk, hk.bind ht, fun hev => ⟨fun e e' h h' => (ho hev e e' h h').1, fun n n' h h' => ?_⟩⟩
  obtain ⟨e, he, hn⟩ := Res.bind_eq_ok.mp h
  obtain ⟨e', he', hn'⟩ := Res.bind_eq_ok.mp h'
  exact (ho hev e e' he he').2 n n' hn hn'

/-- **C123** (text files). Two files with the same lines in different orders are both accepted, or both refused, or both
panic. If they are accepted and all lines have the same number of components, they have the same words, and the same answers for
all words and queries. Both readers. -/
theorem c123_text (lossy : Bool) (a b : Bytes) (pos pos' : Nat) (la lb : List Bytes) (h1 : IsLines (a.drop pos) la)
    (h2 : IsLines (b.drop pos') lb) (hp : la.Perm lb) :
    SameKind (readTextRaw lossy a pos : Res (Embeddings T SimpleVocab (NdArray F) F)) (readTextRaw lossy b pos') ∧
    SameKind (readText lossy a pos : Res (Embeddings T SimpleVocab (NdArray F) F)) (readText lossy b pos') ∧
    (Even F lossy la →
      (∀ e e' : Embeddings T SimpleVocab (NdArray F) F, readTextRaw lossy a pos = .ok e → readTextRaw lossy b pos' = .ok e' →
        SameButOrder e e') ∧
      ∀ e e' : Embeddings T SimpleVocab (NdArray F) F, readText lossy a pos = .ok e → readText lossy b pos' = .ok e' →
        SameButOrder e e') :=
  have hfit : ShapeFits none := trivial
  order_both (readEmbeds_kind hfit h1 h2 hp)
    (fun _ h => h.elim (normalizeRead_total hfit) (normalizeRead_total hfit))
    (fun hev _ _ h h' => readEmbeds_order hfit h1 h2 hp hev h h')

/-- **C123** (text files with dimensions). The same for two files with the same first line, which has a space and ends with a
line feed, and the same lines after it in different orders. -/
theorem c123_text_dims (lossy : Bool) (pre first a b : Bytes) (hsp : (32 : UInt8) ∈ first) (hnl : (10 : UInt8) ∉ first)
    (la lb : List Bytes) (h1 : IsLines a la) (h2 : IsLines b lb) (hp : la.Perm lb) :
    SameKind (readTextDimsRaw lossy (pre ++ (first ++ 10 :: a)) pre.length : Res (Embeddings T SimpleVocab (NdArray F) F))
      (readTextDimsRaw lossy (pre ++ (first ++ 10 :: b)) pre.length) ∧
    SameKind (readTextDims lossy (pre ++ (first ++ 10 :: a)) pre.length : Res (Embeddings T SimpleVocab (NdArray F) F))
      (readTextDims lossy (pre ++ (first ++ 10 :: b)) pre.length) ∧
    (Even F lossy la →
      (∀ e e' : Embeddings T SimpleVocab (NdArray F) F, readTextDimsRaw lossy (pre ++ (first ++ 10 :: a)) pre.length = .ok e →
        readTextDimsRaw lossy (pre ++ (first ++ 10 :: b)) pre.length = .ok e' → SameButOrder e e') ∧
      ∀ e e' : Embeddings T SimpleVocab (NdArray F) F, readTextDims lossy (pre ++ (first ++ 10 :: a)) pre.length = .ok e →
        readTextDims lossy (pre ++ (first ++ 10 :: b)) pre.length = .ok e' → SameButOrder e e') := by
  have hd : ∀ z : Bytes, (pre ++ (first ++ 10 :: z)).drop (pre.length + (first.length + 1)) = z := by
    intro z
    rw [show pre ++ (first ++ 10 :: z) = (pre ++ first ++ [10]) ++ z by simp]
    exact List.drop_left' (by simp)
  obtain ⟨e1, e2⟩ := sameHead_dims hsp hnl a b pre
  have g1 : IsLines ((pre ++ (first ++ 10 :: a)).drop (pre.length + (first.length + 1))) la := by rw [hd]; exact h1
  have g2 : IsLines ((pre ++ (first ++ 10 :: b)).drop (pre.length + (first.length + 1))) lb := by rw [hd]; exact h2
  unfold readTextDims
  rw [readTextDimsRaw_eq, readTextDimsRaw_eq, ← e1]
  generalize hr : (do let n ← readNumber 32; let k ← readNumber 10; return (n, k) : Rd (Nat × Nat))
    (pre ++ (first ++ 10 :: a)) pre.length = r at e2 ⊢
  cases r with
  | ok r =>
    obtain ⟨r, q⟩ := r
    obtain rfl := e2 r q rfl
    simp only [Res.ok_bind]
    by_cases hfit : ShapeFits (some r)
    · exact order_both (readEmbeds_kind hfit g1 g2 hp)
        (fun _ h => h.elim (normalizeRead_total hfit) (normalizeRead_total hfit))
        (fun hev _ _ h h' => readEmbeds_order hfit g1 g2 hp hev h h')
    · have hpan : ∀ d pos, (readEmbeds (some r) lossy d pos : Res (Embeddings T SimpleVocab (NdArray F) F)) = .panic := by
        intro d pos
        have : allocTable (some r) = .panic := by
          unfold ShapeFits at hfit
          unfold allocTable
          dsimp only at hfit ⊢
          by_cases hx : 24 * r.1 ≤ isizeMax
          · have hy : ¬ 4 * (r.1 * r.2) ≤ isizeMax := fun hy => hfit ⟨hx, hy⟩
            simp [Res.assert, hx, hy]
          · simp [Res.assert, hx]
        unfold readEmbeds
        rw [this]; rfl
      rw [hpan, hpan]
      exact order_both (.of Iff.rfl Iff.rfl) (fun _ h => by rcases h with h | h <;> cases h) (fun _ _ _ h => by cases h)
  | err x => exact order_both (.of Iff.rfl Iff.rfl) (fun _ h => by rcases h with h | h <;> cases h) (fun _ _ _ h => by cases h)
  | panic => exact order_both (.of Iff.rfl Iff.rfl) (fun _ h => by rcases h with h | h <;> cases h) (fun _ _ _ h => by cases h)

end

/-! ## Floret files -/

theorem pointwise_iff {α β : Type} {R : α → β → Prop} {l : List α} {l' : List β} :
    l.length = l'.length ∧ (∀ (i : Nat) a b, l[i]? = some a → l'[i]? = some b → R a b) ↔ List.Forall₂ R l l' := by
  rw [List.forall₂_iff_zip]
  refine and_congr_right fun hlen => ⟨fun h a b hab => ?_, fun h i a b ha hb => ?_⟩
  · obtain ⟨i, hi⟩ := List.mem_iff_getElem?.mp hab
    rw [List.getElem?_zip_eq_some] at hi
    exact h i a b hi.1 hi.2
  · exact h (List.mem_iff_getElem?.mpr ⟨i, List.getElem?_zip_eq_some.mpr ⟨ha, hb⟩⟩)

/-- **C123** (floret). With the lines in another order, a file is read as embeddings with the same vocabulary and the same
rows, in the order of the lines. Missing: the same embeddings, or an error; see `c123_floret_false`. -/
theorem c123_floret_partial {T F : Type} [FloatText F] (pre first a b : Bytes) (h7 : 7 ≤ first.count 32)
    (hnl : (10 : UInt8) ∉ first) (la lb : List Bytes) (h1 : IsLines a la) (h2 : IsLines b lb) (hp : la.Perm lb)
    (e : Embeddings T FloretSubwordVocab (NdArray F) F)
    (he : Embeddings.readFloret (pre ++ (first ++ 10 :: a)) pre.length = .ok e) :
    ∃ e' : Embeddings T FloretSubwordVocab (NdArray F) F,
      Embeddings.readFloret (pre ++ (first ++ 10 :: b)) pre.length = .ok e' ∧ e'.vocab = e.vocab ∧
      e'.dims = e.dims ∧ e'.storage.inner.rows.Perm e.storage.inner.rows ∧
      (∀ (i : Nat) l, lb[i]? = some l → ∃ r, e'.storage.inner.rows[i]? = some r ∧ FloretLineHas l r) := by
  have hd : ∀ z : Bytes, (pre ++ (first ++ 10 :: z)).drop (pre.length + (first.length + 1)) = z := by
    intro z
    rw [show pre ++ (first ++ 10 :: z) = (pre ++ first ++ [10]) ++ z by simp]
    exact List.drop_left' (by simp)
  obtain ⟨e1, e2⟩ := sameHead_floret h7 hnl a b pre
  obtain ⟨h, p, lines, rows, g, c1, c2, c3, c4, c5, c6, hl, hn, hr, hall, n1, n2, hs, hv⟩ := (c60_accepts _ _ e).mp he
  obtain rfl := e2 h p g
  rw [hd] at hl
  obtain rfl : la = lines := h1.eq.trans hl.eq.symm
  obtain ⟨rows', f1, f2⟩ := List.perm_comp_forall₂ hp.symm (pointwise_iff.mp ⟨hn.trans hr.symm, hall⟩)
  obtain ⟨g1, g2⟩ := pointwise_iff.mpr f1
  refine ⟨⟨none, ⟨⟨h.embedLen, rows'⟩⟩, e.vocab, none⟩, (c60_accepts _ _ _).mpr ⟨h, _, lb, rows', e1 ▸ g, c1, c2, c3, c4, c5,
    c6, by rw [hd]; exact h2, hp.length_eq ▸ hn, f2.length_eq.trans hr, g2, rfl, rfl, rfl, hv⟩, rfl, ?_, ?_, ?_⟩
  · show h.embedLen = e.storage.inner.cols
    rw [hs]
  · show rows'.Perm e.storage.inner.rows
    rw [hs]; exact f2
  · intro i l hi
    obtain ⟨hlt, -⟩ := List.getElem?_eq_some_iff.mp hi
    have := List.getElem?_eq_getElem (l := rows') (i := i) (by rw [← g1]; exact hlt)
    exact ⟨_, this, (g2 i l _ hi this).1⟩

/-! ## Examples and counterexamples -/

attribute [local instance] exampleScalar exampleFloatText

/-- **C123 is false** for floret files: the number at the beginning of a line does not matter, and with the lines in another
order the rows are in another order. Without the same number of components in each line the vectors of text files differ. -/
theorem c123_false :
    exampleFloretTable "2 1 3 3 1 7 < >\n0 5\n1 6\n" = .ok [[5], [6]] ∧
    exampleFloretTable "2 1 3 3 1 7 < >\n1 6\n0 5\n" = .ok [[6], [5]] ∧
    exampleTable "a 1\nb 2 3 4\n" = .ok ([['a'], ['b']], [[1, 2], [3, 4]]) ∧
    exampleTable "b 2 3 4\na 1\n" = .ok ([['b'], ['a']], [[2, 3], [4, 1]]) := by
  refine ⟨?_, ?_, ?_, ?_⟩ <;> decide +kernel

theorem exampleEven : Even F32 false [ascii "a 1 2", ascii "b 3 4"] := by
  refine ⟨2, fun l hl r hr => ?_⟩
  have h := readTextLine_iff.mpr hr
  simp only [List.mem_cons, List.not_mem_nil, or_false] at hl
  rcases hl with rfl | rfl
  · rw [show readTextLine false (ascii "a 1 2") = .ok (['a'], ([1, 2] : List F32)) by decide +kernel] at h
    cases h; rfl
  · rw [show readTextLine false (ascii "b 3 4") = .ok (['b'], ([3, 4] : List F32)) by decide +kernel] at h
    cases h; rfl

/-- `c123_text` and `c123_text_dims` for files that are accepted; `exampleEven` is the hypothesis about the components. -/
example := (c123_text (T := Str) (F := F32) false (ascii "a 1 2\nb 3 4") (ascii "b 3 4\na 1 2\n") 0 0
  [ascii "a 1 2", ascii "b 3 4"] [ascii "b 3 4", ascii "a 1 2"]
  ⟨by decide +kernel, .inr ⟨[ascii "a 1 2"], _, rfl, by decide +kernel, by decide +kernel⟩⟩
  ⟨by decide +kernel, .inl (by decide +kernel)⟩ (.swap _ _ _)).2.2 exampleEven
example := (c123_text_dims (T := Str) (F := F32) false [120] (ascii "2 2") (ascii "a 1 2\nb 3 4\n") (ascii "b 3 4\na 1 2\n")
  (by decide +kernel) (by decide +kernel) [ascii "a 1 2", ascii "b 3 4"] [ascii "b 3 4", ascii "a 1 2"]
  ⟨by decide +kernel, .inl (by decide +kernel)⟩ ⟨by decide +kernel, .inl (by decide +kernel)⟩ (.swap _ _ _)).2.2 exampleEven
example : exampleTable "a 1 2\nb 3 4" = .ok ([['a'], ['b']], [[1, 2], [3, 4]]) ∧
    exampleTableDims "2 2\na 1 2\nb 3 4\n" = .ok ([['a'], ['b']], [[1, 2], [3, 4]]) := by
  refine ⟨?_, ?_⟩ <;> decide +kernel

/-- Hypotheses of `c123_floret_partial`. -/
example := c123_floret_partial (T := Str) (F := F32) [] (ascii "2 1 3 3 1 7 < >") (ascii "0 5\n1 6\n") (ascii "1 6\n0 5\n")
  (by decide +kernel) (by decide +kernel) [ascii "0 5", ascii "1 6"] [ascii "1 6", ascii "0 5"]
  ⟨by decide +kernel, .inl (by decide +kernel)⟩ ⟨by decide +kernel, .inl (by decide +kernel)⟩ (.swap _ _ _)
  ⟨none, ⟨⟨1, [[5], [6]]⟩⟩, ⟨['<'], ['>'], ⟨2, 7, 1⟩, indexMap [], [], 3, 3⟩, none⟩ (by decide +kernel)

/-- `c123_queries` (through `table_answers`) for two orders of the words. -/
example : SameQueries (F := F32)
    (⟨none, ⟨⟨2, [[1, 2], [3, 4]]⟩⟩, ⟨indexMap [['a'], ['b']], [['a'], ['b']]⟩, none⟩ : Embeddings Str SimpleVocab (NdArray F32) F32)
    (⟨none, ⟨⟨2, [[3, 4], [1, 2]]⟩⟩, ⟨indexMap [['b'], ['a']], [['b'], ['a']]⟩, none⟩ : Embeddings Str SimpleVocab (NdArray F32) F32) :=
  (table_answers (t := [(['a'], [1, 2], 0), (['b'], [3, 4], 0)]) (t' := [(['b'], [3, 4], 0), (['a'], [1, 2], 0)])
    (.swap _ _ _) (by decide) 2 false).2.2.2

end FF
