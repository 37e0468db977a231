import Verif.Props.Ranking
import Verif.Props.TextExact

/-!
# The order of the results of similarity queries

`WordSimilarityResult` can be compared by callers. The comparison is a total order that agrees with `==`; words
of equal similarity are ordered by their code points.
-/

namespace FF

/-- The UTF-8 encodings of two different characters, each followed by anything, compare like the characters. -/
theorem utf8EncodeChar_lt {c d : Char} (h : c.val.toNat < d.val.toNat) (x y : Bytes) :
    String.utf8EncodeChar c ++ x < String.utf8EncodeChar d ++ y := by
  have hd : d.val.toNat < 0x110000 := by
    have := d.valid
    rcases this with h | h
    · exact Nat.lt_trans h (by decide)
    · exact h.2
  unfold String.utf8EncodeChar
  generalize c.val.toNat = a at *
  generalize d.val.toNat = b at *
  dsimp only
  by_cases a1 : a ≤ 0x7f <;> by_cases a2 : a ≤ 0x7ff <;> by_cases a3 : a ≤ 0xffff <;>
    by_cases b1 : b ≤ 0x7f <;> by_cases b2 : b ≤ 0x7ff <;> by_cases b3 : b ≤ 0xffff <;>
    first
    | omega
    | simp only [a1, a2, a3, b1, b2, b3, if_true, if_false, List.cons_append, List.nil_append,
        List.cons_lt_cons_iff, UInt8.lt_iff_toNat_lt, ← UInt8.toNat_inj, UInt8.toNat_ofNat']
      omega
    | skip
  simp only [a1, a2, a3, b1, b2, b3, if_false, List.cons_append, List.nil_append,
    List.cons_lt_cons_iff, UInt8.lt_iff_toNat_lt, ← UInt8.toNat_inj, UInt8.toNat_ofNat']
  have m1 : ∀ n : Nat, (n % 64 + 128) % 2 ^ 8 = n % 64 + 128 := by intro n; omega
  have m2 : ∀ n : Nat, (n % 8 + 240) % 2 ^ 8 = n % 8 + 240 := by intro n; omega
  rw [m1, m1, m1, m1, m1, m1, m2, m2]
  rcases Nat.lt_or_ge (a / 262144) (b / 262144) with h1 | h1
  · omega
  · rcases Nat.lt_or_ge (a / 4096) (b / 4096) with h2 | h2
    · omega
    · rcases Nat.lt_or_ge (a / 64) (b / 64) with h3 | h3 <;> omega

/-- The code points of a word. -/
def codePoints (s : Str) : List Nat := s.map fun c => c.val.toNat

theorem codePoints_inj {s t : Str} (h : codePoints s = codePoints t) : s = t := by
  unfold codePoints at h
  refine List.map_inj_right ?_ |>.mp h
  intro c d hcd
  exact Char.ext (UInt32.toNat_inj.mp hcd)

theorem utf8_lt_of {s t : Str} (h : codePoints s < codePoints t) : utf8 s < utf8 t := by
  induction s generalizing t with
  | nil =>
    cases t with
    | nil => cases h
    | cons d t =>
      rw [utf8_cons]
      have : String.utf8EncodeChar d ≠ [] := String.utf8EncodeChar_ne_nil
      cases he : String.utf8EncodeChar d with
      | nil => exact absurd he this
      | cons b bs => exact List.nil_lt_cons _ _
  | cons c s ih =>
    cases t with
    | nil => cases h
    | cons d t =>
      rw [utf8_cons, utf8_cons]
      have h : c.val.toNat :: codePoints s < d.val.toNat :: codePoints t := h
      rcases List.cons_lt_cons_iff.mp h with h | ⟨h, h'⟩
      · exact utf8EncodeChar_lt h _ _
      · have : c = d := Char.ext (UInt32.toNat_inj.mp h)
        subst this
        have := ih h'
        generalize String.utf8EncodeChar c = e
        induction e with
        | nil => exact this
        | cons x e ih' => rw [List.cons_append, List.cons_append, List.cons_lt_cons_iff]; exact .inr ⟨rfl, ih'⟩

/-- C100: the bytes of words are ordered like their code points. -/
theorem c100_code_points (s t : Str) : utf8 s < utf8 t ↔ codePoints s < codePoints t := by
  refine ⟨fun h => ?_, utf8_lt_of⟩
  by_cases h1 : codePoints s < codePoints t
  · exact h1
  · by_cases h2 : codePoints t < codePoints s
    · exact absurd (utf8_lt_of h2) (fun h' => List.lt_irrefl _ (List.lt_trans h h'))
    · have : codePoints s = codePoints t := List.le_antisymm (List.not_lt.mp h2) (List.not_lt.mp h1)
      rw [codePoints_inj this] at h
      exact absurd h (List.lt_irrefl _)

/-- Specification: `a` comes before `b`. Its similarity is the larger number, or the numbers are the same and its word
has the smaller code point at the first difference (or is the beginning of the other word). -/
def ComesBefore (a b : WordSim F32) : Prop :=
  f32Scaled b.similarity < f32Scaled a.similarity ∨
  (f32Scaled a.similarity = f32Scaled b.similarity ∧ codePoints a.word < codePoints b.word)

/-- Specification: the similarity is a number, as the type `NotNan` has it. -/
def HasNumber (a : WordSim F32) : Prop := ¬ F32IsNan a.similarity

theorem ranksBefore_iff {a b : WordSim F32} (ha : HasNumber a) (hb : HasNumber b) : RanksBefore a b ↔ ComesBefore a b := by
  have h1 := (c41_compare b.similarity a.similarity).2
  have h2 := (c41_compare a.similarity b.similarity).2
  unfold HasNumber at ha hb
  unfold RanksBefore ComesBefore
  rw [← Bool.not_eq_true, ← Bool.not_eq_true, h1, h2, c100_code_points]
  simp only [ha, hb, not_false_eq_true, true_and]
  constructor
  · rintro (h | ⟨h3, h4, h5⟩)
    · exact .inl h
    · exact .inr ⟨by omega, h5⟩
  · rintro (h | ⟨h3, h4⟩)
    · exact .inl h
    · exact .inr ⟨by omega, by omega, h4⟩

theorem ComesBefore.trans {a b c : WordSim F32} (h1 : ComesBefore a b) (h2 : ComesBefore b c) : ComesBefore a c := by
  unfold ComesBefore at *
  rcases h1 with h1 | ⟨h1, h1'⟩ <;> rcases h2 with h2 | ⟨h2, h2'⟩
  · exact .inl (by omega)
  · exact .inl (by omega)
  · exact .inl (by omega)
  · exact .inr ⟨by omega, List.lt_trans h1' h2'⟩

theorem ComesBefore.irrefl (a : WordSim F32) : ¬ ComesBefore a a := by
  rintro (h | ⟨_, h⟩)
  · omega
  · exact List.lt_irrefl _ h

theorem ComesBefore.total (a b : WordSim F32) :
    ComesBefore a b ∨ ComesBefore b a ∨ (f32Scaled a.similarity = f32Scaled b.similarity ∧ a.word = b.word) := by
  unfold ComesBefore
  by_cases h1 : f32Scaled b.similarity < f32Scaled a.similarity
  · exact .inl (.inl h1)
  · by_cases h2 : f32Scaled a.similarity < f32Scaled b.similarity
    · exact .inr (.inl (.inl h2))
    · have he : f32Scaled a.similarity = f32Scaled b.similarity := by omega
      by_cases h3 : codePoints a.word < codePoints b.word
      · exact .inl (.inr ⟨he, h3⟩)
      · by_cases h4 : codePoints b.word < codePoints a.word
        · exact .inr (.inl (.inr ⟨he.symm, h4⟩))
        · exact .inr (.inr ⟨he, codePoints_inj (List.le_antisymm (List.not_lt.mp h4) (List.not_lt.mp h3))⟩)

/-- **C100** (comparison). What `cmp`, `partial_cmp` and `==` of two results return. -/
theorem c100_compare (a b : WordSim F32) (ha : HasNumber a) (hb : HasNumber b) :
    (a.cmp b = .lt ↔ ComesBefore a b) ∧ (a.cmp b = .gt ↔ ComesBefore b a) ∧
    (a.cmp b = .eq ↔ f32Scaled a.similarity = f32Scaled b.similarity ∧ a.word = b.word) ∧
    (a.eq b = true ↔ f32Scaled a.similarity = f32Scaled b.similarity ∧ a.word = b.word) ∧
    a.partialCmp b = some (a.cmp b) := by
  have hlt : a.cmp b = .lt ↔ ComesBefore a b := cmp_lt.trans (ranksBefore_iff ha hb)
  have hgt : a.cmp b = .gt ↔ ComesBefore b a := cmp_gt.trans (ranksBefore_iff hb ha)
  refine ⟨hlt, hgt, ?_, ?_, rfl⟩
  · constructor
    · intro h
      rcases ComesBefore.total a b with h1 | h1 | h1
      · rw [hlt.mpr h1] at h; cases h
      · rw [hgt.mpr h1] at h; cases h
      · exact h1
    · rintro ⟨h1, h2⟩
      have n1 : ¬ ComesBefore a b := by
        rintro (h | ⟨_, h⟩)
        · omega
        · rw [h2] at h; exact List.lt_irrefl _ h
      have n2 : ¬ ComesBefore b a := by
        rintro (h | ⟨_, h⟩)
        · omega
        · rw [h2] at h; exact List.lt_irrefl _ h
      cases hc : a.cmp b with
      | lt => exact absurd (hlt.mp hc) n1
      | gt => exact absurd (hgt.mp hc) n2
      | eq => rfl
  · have h1 := (c41_compare b.similarity a.similarity)
    have h2 := (c41_compare a.similarity b.similarity)
    unfold HasNumber at ha hb
    unfold WordSim.eq eqF
    simp only [Bool.and_eq_true, Bool.not_eq_true', ← Bool.not_eq_true, h1.1, h1.2, h2.1, h2.2, ha, hb, not_false_eq_true,
      true_and, decide_eq_true_eq]
    constructor
    · rintro ⟨⟨h3, h4⟩, h5⟩; exact ⟨by omega, h5⟩
    · rintro ⟨h3, h4⟩; exact ⟨⟨by omega, by omega⟩, h4⟩

/-- **C100** (total order). Comparing results obeys the laws that `Ord` and `Eq` demand. -/
theorem c100_total (a b c : WordSim F32) (ha : HasNumber a) (hb : HasNumber b) (hc : HasNumber c) :
    a.cmp a = .eq ∧ a.cmp b = (b.cmp a).swap ∧ (a.cmp b = .lt → b.cmp c = .lt → a.cmp c = .lt) ∧
    (a.cmp b = .eq → a.cmp c = b.cmp c) ∧ (a.cmp b = .eq ↔ a.eq b = true) := by
  have hab := c100_compare a b ha hb
  have hba := c100_compare b a hb ha
  have hac := c100_compare a c ha hc
  have hbc := c100_compare b c hb hc
  refine ⟨(c100_compare a a ha ha).2.2.1.mpr ⟨rfl, rfl⟩, ?_, ?_, ?_, ?_⟩
  · cases h : b.cmp a with
    | lt => exact hab.2.1.mpr (hba.1.mp h)
    | gt => exact hab.1.mpr (hba.2.1.mp h)
    | eq => obtain ⟨h1, h2⟩ := hba.2.2.1.mp h; exact hab.2.2.1.mpr ⟨h1.symm, h2.symm⟩
  · intro h1 h2
    exact hac.1.mpr ((hab.1.mp h1).trans (hbc.1.mp h2))
  · intro h
    obtain ⟨h1, h2⟩ := hab.2.2.1.mp h
    cases h3 : b.cmp c with
    | lt => have := hbc.1.mp h3; unfold ComesBefore at this; rw [← h1, ← h2] at this; exact hac.1.mpr this
    | gt => have := hbc.2.1.mp h3; unfold ComesBefore at this; rw [← h1, ← h2] at this; exact hac.2.1.mpr this
    | eq => have := hbc.2.2.1.mp h3; rw [← h1, ← h2] at this; exact hac.2.2.1.mpr this
  · rw [hab.2.2.1, hab.2.2.2.1]

/-- The hypotheses of `c100_compare` and `c100_total` hold for results with the similarities 1 and both zeros, and words of
which one needs two bytes for its character and one four. -/
example : HasNumber ⟨0x3f800000, ['a']⟩ ∧ HasNumber ⟨0, ['ß']⟩ ∧ HasNumber ⟨0x80000000, ['😀']⟩ ∧
    (⟨0, ['ß']⟩ : WordSim F32).cmp ⟨0x80000000, ['😀']⟩ = .lt ∧
    (⟨0, ['ß']⟩ : WordSim F32).cmp ⟨0x3f800000, ['a']⟩ = .gt ∧
    (⟨0, ['ß']⟩ : WordSim F32).eq ⟨0x80000000, ['ß']⟩ = true := by
  unfold HasNumber F32IsNan
  decide +kernel

/-- Code points, not UTF-16 code units: those would order the words ['\uffff'] and ['😀'] the other way
round. -/
example : codePoints ['\uffff'] < codePoints ['😀'] ∧ utf8 ['\uffff'] < utf8 ['😀'] := by decide +kernel

section
variable {T V S : Type} [Vocab V] [Storage S F32] [StorageView S F32] [Scalar F32]
open Embeddings

omit [Storage S F32] in
theorem similarity_sorted {e : Embeddings T V S F32} (hv : WordsOk e.vocab) {q : List F32} {skip : List Str} {limit : Nat}
    {bs : Option Nat} {r : List (WordSim F32)} (h1 : 1 ≤ limit) (h : e.similarity q skip limit bs = .ok r) :
    (∀ a ∈ r, HasNumber a) ∧ r.Pairwise ComesBefore := by
  obtain ⟨m, -, -, -, -, -, hn, ht⟩ := similarity_ok_top hv h1 h
  have hnum : ∀ a ∈ r, HasNumber a := by
    intro a ha hnan
    have := hn a (ht.mem a ha)
    rw [(c41_compare a.similarity a.similarity).1.mpr hnan] at this
    cases this
  refine ⟨hnum, ?_⟩
  refine ht.sorted.imp_of_mem fun {a b} ha hb hab => ?_
  exact (ranksBefore_iff (hnum a ha) (hnum b hb)).mp hab

/-- **C100** (results). The results of every query are in this order, strictly, and no similarity is NaN. -/
theorem c100_results (e : Embeddings T V S F32) (hv : WordsOk e.vocab) (limit : Nat) (h1 : 1 ≤ limit) (bs : Option Nat)
    (r : List (WordSim F32)) (h : (∃ w, e.wordSimilarity w limit bs = .ok (some r)) ∨
      (∃ q skip, e.embeddingSimilarityMasked q limit skip bs = .ok (some r)) ∨
      (∃ q, e.embeddingSimilarity q limit bs = .ok (some r)) ∨
      (∃ x y z r1 r2 r3, e.analogyMasked x y z r1 r2 r3 limit bs = .ok (.ok r)) ∨
      (∃ x y z, e.analogy x y z limit bs = .ok (.ok r))) :
    (∀ a ∈ r, HasNumber a) ∧ r.Pairwise ComesBefore := by
  have hm : ∀ q skip, e.embeddingSimilarityMasked q limit skip bs = .ok (some r) →
      (∀ a ∈ r, HasNumber a) ∧ r.Pairwise ComesBefore := by
    intro q skip h
    unfold embeddingSimilarityMasked at h
    obtain ⟨r', h2, h⟩ := Res.bind_eq_ok.mp h
    cases h
    exact similarity_sorted hv h1 h2
  have ha : ∀ x y z r1 r2 r3, e.analogyMasked x y z r1 r2 r3 limit bs = .ok (.ok r) →
      (∀ a ∈ r, HasNumber a) ∧ r.Pairwise ComesBefore := by
    intro x y z r1 r2 r3 h
    unfold analogyMasked at h
    obtain ⟨o, h2, h⟩ := Res.bind_eq_ok.mp h
    cases o with
    | error p => cases h
    | ok vs =>
      obtain ⟨v1, v2, v3⟩ := vs
      dsimp only at h
      obtain ⟨r', h3, h⟩ := Res.bind_eq_ok.mp h
      cases h
      exact similarity_sorted hv h1 h3
  rcases h with ⟨w, h⟩ | ⟨q, skip, h⟩ | ⟨q, h⟩ | ⟨x, y, z, r1, r2, r3, h⟩ | ⟨x, y, z, h⟩
  · unfold wordSimilarity at h
    obtain ⟨o, h2, h⟩ := Res.bind_eq_ok.mp h
    cases o with
    | none => cases h
    | some q =>
      dsimp only at h
      obtain ⟨r', h3, h⟩ := Res.bind_eq_ok.mp h
      cases h
      exact similarity_sorted hv h1 h3
  · exact hm q skip h
  · exact hm q [] h
  · exact ha x y z r1 r2 r3 h
  · exact ha x y z true true true h

end

attribute [local instance] exampleScalar in
/-- The hypotheses of `c100_results` hold for a concrete case, and the theorem says something about two results. -/
example := c100_results exampleQuery ⟨by decide, by decide⟩ 2 (by decide) none [⟨2, ['b']⟩, ⟨2, ['c']⟩]
  (.inl ⟨['a'], by decide +kernel⟩)

end FF
