import Verif.Model.Similarity
import Verif.Props.Lookup

/-!
# Similarity queries (C41-C45)
-/

namespace FF

open Res Embeddings

/-! ## The ranking -/

/-- Laws of the comparison of floats that are not NaN: a strict weak order (`0` and `-0` are equivalent). -/
class LawfulScalarOrd (F : Type) [ScalarOrd F] : Prop where
  irrefl : ∀ a : F, ScalarOrd.lt a a = false
  trans : ∀ a b c : F, ScalarOrd.lt a b = true → ScalarOrd.lt b c = true → ScalarOrd.lt a c = true
  cotrans : ∀ a b c : F, ScalarOrd.isNan a = false → ScalarOrd.isNan b = false → ScalarOrd.isNan c = false →
    ScalarOrd.lt a c = true → ScalarOrd.lt a b = true ∨ ScalarOrd.lt b c = true

/-- IEEE single precision comparison fulfils the laws. -/
instance : LawfulScalarOrd F32 where
  irrefl a := by simp [ScalarOrd.lt]
  trans a b c h1 h2 := by
    simp only [ScalarOrd.lt, Bool.and_eq_true, Bool.not_eq_true', decide_eq_false_iff_not, decide_eq_true_eq]
      at h1 h2 ⊢
    exact ⟨⟨h1.1.1, h2.1.2⟩, by omega⟩
  cotrans a b c ha hb hc h := by
    simp only [ScalarOrd.lt, ScalarOrd.isNan, Bool.and_eq_true, Bool.not_eq_true', decide_eq_false_iff_not,
      decide_eq_true_eq] at ha hb hc h ⊢
    by_cases hab : f32Key a < f32Key b
    · exact .inl ⟨⟨ha, hb⟩, hab⟩
    · exact .inr ⟨⟨hb, hc⟩, by omega⟩

/-- Specification of the ranking: higher similarity first, equal similarities by the bytes of the word. -/
def RanksBefore {F : Type} [ScalarOrd F] (a b : WordSim F) : Prop :=
  ScalarOrd.lt b.similarity a.similarity = true ∨
  (ScalarOrd.lt b.similarity a.similarity = false ∧ ScalarOrd.lt a.similarity b.similarity = false ∧
    utf8 a.word < utf8 b.word)

theorem cmpBytes_lt {a b : Bytes} : cmpBytes a b = .lt ↔ a < b := by
  induction a generalizing b with
  | nil => cases b <;> simp [cmpBytes]
  | cons x a ih =>
    cases b with
    | nil => simp [cmpBytes]
    | cons y b =>
      rw [List.cons_lt_cons_iff]
      unfold cmpBytes
      by_cases h1 : x < y
      · simp [h1]
      · rw [if_neg h1]
        by_cases h2 : y < x
        · rw [if_pos h2]
          have : x ≠ y := by rintro rfl; exact h1 h2
          simp [h1, this]
        · rw [if_neg h2, ih]
          have : x = y := UInt8.le_antisymm (UInt8.not_lt.mp h2) (UInt8.not_lt.mp h1)
          simp [this]

theorem cmpBytes_gt {a b : Bytes} : cmpBytes a b = .gt ↔ b < a := by
  induction a generalizing b with
  | nil => cases b <;> simp [cmpBytes]
  | cons x a ih =>
    cases b with
    | nil => simp [cmpBytes]
    | cons y b =>
      rw [List.cons_lt_cons_iff]
      unfold cmpBytes
      by_cases h1 : x < y
      · rw [if_pos h1]
        have h2 : ¬ y < x := UInt8.not_lt.mpr (UInt8.le_of_lt h1)
        have : y ≠ x := by rintro rfl; exact h2 h1
        simp [h2, this]
      · rw [if_neg h1]
        by_cases h2 : y < x
        · simp [h2]
        · rw [if_neg h2, ih]
          have : x = y := UInt8.le_antisymm (UInt8.not_lt.mp h2) (UInt8.not_lt.mp h1)
          simp [this]

section
variable {F : Type} [ScalarOrd F] [LawfulScalarOrd F]

theorem lt_asymm {a b : F} (h : ScalarOrd.lt a b = true) : ScalarOrd.lt b a = false := by
  cases hb : ScalarOrd.lt b a with
  | false => rfl
  | true =>
    have := LawfulScalarOrd.trans a b a h hb
    rw [LawfulScalarOrd.irrefl] at this; cases this

omit [LawfulScalarOrd F] in
theorem cmp_lt {a b : WordSim F} : a.cmp b = .lt ↔ RanksBefore a b := by
  unfold WordSim.cmp cmpF RanksBefore
  cases h1 : ScalarOrd.lt b.similarity a.similarity with
  | true => simp
  | false =>
    cases h2 : ScalarOrd.lt a.similarity b.similarity with
    | true => simp
    | false => simp [cmpStr, cmpBytes_lt]

theorem cmp_gt {a b : WordSim F} : a.cmp b = .gt ↔ RanksBefore b a := by
  unfold WordSim.cmp cmpF RanksBefore
  cases h1 : ScalarOrd.lt b.similarity a.similarity with
  | true => simp [lt_asymm h1]
  | false =>
    cases h2 : ScalarOrd.lt a.similarity b.similarity with
    | true => simp
    | false => simp [cmpStr, cmpBytes_gt]

theorem RanksBefore.asymm {a b : WordSim F} (h : RanksBefore a b) : ¬ RanksBefore b a := by
  intro h'
  have h1 := cmp_lt.mpr h
  have h2 := cmp_gt.mpr h'
  rw [h1] at h2; cases h2

/-- No NaN. -/
def Num (a : WordSim F) : Prop := ScalarOrd.isNan a.similarity = false

theorem not_ranksBefore_trans {a b c : WordSim F} (ha : Num a) (hb : Num b) (hc : Num c)
    (h1 : ¬ RanksBefore a b) (h2 : ¬ RanksBefore b c) : ¬ RanksBefore a c := by
  have e1 : ScalarOrd.lt b.similarity a.similarity = false := by
    cases h : ScalarOrd.lt b.similarity a.similarity with
    | false => rfl
    | true => exact absurd (.inl h) h1
  have e2 : ScalarOrd.lt c.similarity b.similarity = false := by
    cases h : ScalarOrd.lt c.similarity b.similarity with
    | false => rfl
    | true => exact absurd (.inl h) h2
  rintro (h | ⟨h3, h4, h5⟩)
  · rcases LawfulScalarOrd.cotrans _ _ _ hc hb ha h with h | h
    · rw [e2] at h; cases h
    · rw [e1] at h; cases h
  · have e3 : ScalarOrd.lt a.similarity b.similarity = false := by
      cases h : ScalarOrd.lt a.similarity b.similarity with
      | false => rfl
      | true =>
        rcases LawfulScalarOrd.cotrans _ _ _ ha hc hb h with h | h
        · rw [h4] at h; cases h
        · rw [e2] at h; cases h
    have e4 : ScalarOrd.lt b.similarity c.similarity = false := by
      cases h : ScalarOrd.lt b.similarity c.similarity with
      | false => rfl
      | true =>
        rcases LawfulScalarOrd.cotrans _ _ _ hb ha hc h with h | h
        · rw [e1] at h; cases h
        · rw [h4] at h; cases h
    have w1 : ¬ utf8 a.word < utf8 b.word := fun h => h1 (.inr ⟨e1, e3, h⟩)
    have w2 : ¬ utf8 b.word < utf8 c.word := fun h => h2 (.inr ⟨e2, e4, h⟩)
    rw [List.not_lt] at w1 w2
    have := List.le_trans w2 w1
    rw [← List.not_lt] at this
    exact this h5

theorem ranksBefore_trans {a b c : WordSim F} (ha : Num a) (hb : Num b) (hc : Num c)
    (h1 : RanksBefore a b) (h2 : RanksBefore b c) : RanksBefore a c := by
  rcases Classical.em (RanksBefore a c) with h | h
  · exact h
  · exact absurd h1 (not_ranksBefore_trans ha hc hb h h2.asymm)

omit [LawfulScalarOrd F] in
/-- Results about different words are never equivalent. -/
theorem ranksBefore_total {a b : WordSim F} (hw : a.word ≠ b.word) : RanksBefore a b ∨ RanksBefore b a := by
  unfold RanksBefore
  cases h1 : ScalarOrd.lt b.similarity a.similarity with
  | true => simp
  | false =>
    cases h2 : ScalarOrd.lt a.similarity b.similarity with
    | true => simp
    | false =>
      have : utf8 a.word < utf8 b.word ∨ utf8 b.word < utf8 a.word := by
        rcases Classical.em (utf8 a.word < utf8 b.word) with h | h
        · exact .inl h
        · rw [List.not_lt] at h
          rcases Classical.em (utf8 b.word < utf8 a.word) with h' | h'
          · exact .inr h'
          · rw [List.not_lt] at h'
            exact absurd (utf8_injective (List.le_antisymm h' h)) hw
      rcases this with h | h
      · simp [h]
      · simp [h]

/-! ## The heap -/

theorem heapMax_spec {h : List (WordSim F)} (hg : ∀ r ∈ h, Num r) :
    (h = [] ∧ heapMax h = none) ∨
    ∃ m rest, heapMax h = some (m, rest) ∧ (m :: rest).Perm h ∧ ∀ x ∈ h, ¬ RanksBefore m x := by
  induction h with
  | nil => exact .inl ⟨rfl, rfl⟩
  | cons x xs ih =>
    right
    unfold heapMax
    rcases ih fun r hr => hg r (by simp [hr]) with ⟨rfl, h2⟩ | ⟨m, rest, h1, h2, h3⟩
    · rw [h2]
      refine ⟨x, [], rfl, List.Perm.refl _, ?_⟩
      intro y hy
      simp only [List.mem_singleton] at hy
      subst hy
      exact fun h => h.asymm h
    · rw [h1]
      have hm : Num m := hg m (by simp [h2.mem_iff.mp (List.mem_cons_self (a := m))])
      by_cases hc : m.cmp x = .lt
      · refine ⟨x, xs, by simp [hc], List.Perm.refl _, ?_⟩
        intro y hy
        simp only [List.mem_cons] at hy
        rcases hy with rfl | hy
        · exact fun h => h.asymm h
        · exact not_ranksBefore_trans (hg x (by simp)) hm (hg y (by simp [hy])) (cmp_lt.mp hc).asymm (h3 y hy)
      · refine ⟨m, x :: rest, by simp [hc], ?_, ?_⟩
        · exact (List.Perm.swap x m rest).trans (h2.cons x)
        · intro y hy
          simp only [List.mem_cons] at hy
          rcases hy with rfl | hy
          · exact fun h => hc (cmp_lt.mpr h)
          · exact h3 y hy

/-- Specification of "the best `limit` of `cs`": `r` together with the others is all of `cs`, no other ranks before
one in `r`, and `r` has `limit` elements unless there are fewer. -/
def IsBest (limit : Nat) (r cs : List (WordSim F)) : Prop :=
  r.length = min limit cs.length ∧
  ∃ others, (r ++ others).Perm cs ∧ ∀ a ∈ r, ∀ b ∈ others, ¬ RanksBefore b a

theorem heapAdd_best {limit : Nat} (hl : 1 ≤ limit) {h cs : List (WordSim F)} (hb : IsBest limit h cs)
    (hg : ∀ r ∈ cs, Num r) {r : WordSim F} (hr : Num r) :
    ∃ h', heapAdd limit h r = .ok h' ∧ IsBest limit h' (cs ++ [r]) := by
  obtain ⟨hlen, others, hperm, hord⟩ := hb
  have hgh : ∀ x ∈ h, Num x := fun x hx => hg x (hperm.mem_iff.mp (by simp [hx]))
  have hgo : ∀ x ∈ others, Num x := fun x hx => hg x (hperm.mem_iff.mp (by simp [hx]))
  have hpl := hperm.length_eq
  rw [List.length_append] at hpl
  unfold heapAdd
  by_cases hlt : h.length < limit
  · rw [if_pos hlt]
    refine ⟨r :: h, rfl, ?_, others, ?_, ?_⟩
    · simp only [List.length_cons, List.length_append, List.length_nil]; omega
    · have : (r :: (h ++ others)).Perm (r :: cs) := hperm.cons r
      exact this.trans (List.perm_append_comm (l₁ := [r]) (l₂ := cs))
    · have : others = [] := by
        apply List.length_eq_zero_iff.mp; omega
      subst this
      intro _ _ b hb; simp at hb
  · rw [if_neg hlt]
    rcases heapMax_spec hgh with ⟨rfl, _⟩ | ⟨m, rest, h1, h2, h3⟩
    · simp at hlt; omega
    · rw [h1]
      have hm : m ∈ h := h2.mem_iff.mp (by simp)
      have hrest : ∀ x ∈ rest, x ∈ h := fun x hx => h2.mem_iff.mp (by simp [hx])
      by_cases hc : r.cmp m = .lt
      · refine ⟨r :: rest, by simp [hc], ?_, m :: others, ?_, ?_⟩
        · have := h2.length_eq
          simp only [List.length_cons, List.length_append, List.length_nil] at this ⊢
          omega
        · have p1 : (r :: rest ++ m :: others).Perm (r :: (m :: rest ++ others)) := by
            simp only [List.cons_append]
            exact List.perm_middle.cons r
          have p2 : (r :: (m :: rest ++ others)).Perm (r :: cs) := ((h2.append_right others).trans hperm).cons r
          exact p1.trans (p2.trans (List.perm_append_comm (l₁ := [r]) (l₂ := cs)))
        · have hrm := cmp_lt.mp hc
          intro a ha b hb
          simp only [List.mem_cons] at ha hb
          have hma : ∀ x ∈ others, ¬ RanksBefore x m := fun x hx => hord m hm x hx
          rcases ha with rfl | ha <;> rcases hb with rfl | hb
          · exact hrm.asymm
          · exact not_ranksBefore_trans (hgo b hb) (hgh m hm) hr (hma b hb) hrm.asymm
          · exact h3 a (hrest a ha)
          · exact hord a (hrest a ha) b hb
      · refine ⟨h, by simp [hc], ?_, r :: others, ?_, ?_⟩
        · simp only [List.length_append, List.length_cons, List.length_nil]
          omega
        · have p1 : (h ++ r :: others).Perm (r :: (h ++ others)) := List.perm_middle
          exact p1.trans ((hperm.cons r).trans (List.perm_append_comm (l₁ := [r]) (l₂ := cs)))
        · intro a ha b hb
          simp only [List.mem_cons] at hb
          rcases hb with rfl | hb
          · have : ¬ RanksBefore b m := fun h => hc (cmp_lt.mpr h)
            exact not_ranksBefore_trans hr (hgh m hm) (hgh a ha) this (h3 a ha)
          · exact hord a ha b hb

omit [LawfulScalarOrd F] in
theorem insertSorted_perm (r : WordSim F) (l : List (WordSim F)) : (insertSorted r l).Perm (r :: l) := by
  induction l with
  | nil => exact List.Perm.refl _
  | cons x l ih =>
    unfold insertSorted
    split
    · exact (ih.cons x).trans (List.Perm.swap r x l)
    · exact List.Perm.refl _

omit [LawfulScalarOrd F] in
theorem intoSortedVec_perm (l : List (WordSim F)) : (intoSortedVec l).Perm l := by
  induction l with
  | nil => exact List.Perm.refl _
  | cons x l ih => exact (insertSorted_perm x _).trans (ih.cons x)

theorem insertSorted_sorted {r : WordSim F} {l : List (WordSim F)} (hr : Num r) (hg : ∀ x ∈ l, Num x)
    (hs : l.Pairwise fun a b => ¬ RanksBefore b a) :
    (insertSorted r l).Pairwise fun a b => ¬ RanksBefore b a := by
  induction l with
  | nil => simp [insertSorted]
  | cons x l ih =>
    obtain ⟨hx, hs⟩ := List.pairwise_cons.mp hs
    unfold insertSorted
    split
    · rename_i hc
      refine List.pairwise_cons.mpr ⟨?_, ih (fun y hy => hg y (by simp [hy])) hs⟩
      intro y hy
      rcases List.mem_cons.mp ((insertSorted_perm r l).mem_iff.mp hy) with rfl | hy
      · exact (cmp_lt.mp hc).asymm
      · exact hx y hy
    · rename_i hc
      have hc : ¬ RanksBefore x r := fun h => hc (cmp_lt.mpr h)
      refine List.pairwise_cons.mpr ⟨?_, List.pairwise_cons.mpr ⟨hx, hs⟩⟩
      intro y hy
      rcases List.mem_cons.mp hy with rfl | hy
      · exact hc
      · exact not_ranksBefore_trans (hg y (by simp [hy])) (hg x (by simp)) hr (hx y hy) hc

theorem intoSortedVec_sorted {l : List (WordSim F)} (hg : ∀ x ∈ l, Num x) :
    (intoSortedVec l).Pairwise fun a b => ¬ RanksBefore b a := by
  induction l with
  | nil => exact List.Pairwise.nil
  | cons x l ih =>
    refine insertSorted_sorted (hg x (by simp)) ?_ (ih fun y hy => hg y (by simp [hy]))
    intro y hy
    exact hg y (by simp [(intoSortedVec_perm l).mem_iff.mp hy])

end

/-! ## The loop over the batches -/

/-- Specification: the words that may be returned, with their similarity to the query. -/
def candidates {F : Type} [Scalar F] (words : List Str) (rows : List (List F)) (query : List F)
    (skip : List Str) : List (WordSim F) :=
  ((words.zip rows).filter fun p => p.1 ∉ skip).map fun p => ⟨Scalar.dot p.2 query, p.1⟩

section
variable {T V S F : Type} [Vocab V] [Storage S F] [StorageView S F] [Scalar F] [ScalarOrd F]

theorem assert_eq_ok {c : Bool} {u : Unit} : Res.assert c = .ok u ↔ c = true := by cases c <;> simp

/-- One candidate. -/
def addCandidate (limit : Nat) (h : List (WordSim F)) (r : WordSim F) : Res (List (WordSim F)) := do
  Res.assert (!ScalarOrd.isNan r.similarity)
  heapAdd limit h r

omit [Storage S F] [StorageView S F] in
theorem rows_fold (e : Embeddings T V S F) (q : List F) (skip : List Str) (limit : Nat) (rows : List (List F)) :
    ∀ (i : Nat) (heap : List (WordSim F)), i + rows.length ≤ (Vocab.words e.vocab).length →
    (rows.zipIdx i).foldlM (fun h p => e.similarityRow q skip limit h p.1 p.2) heap =
      (candidates ((Vocab.words e.vocab).drop i) rows q skip).foldlM (addCandidate limit) heap := by
  induction rows with
  | nil => intro i heap _; simp [candidates]
  | cons r rows ih =>
    intro i heap hl
    simp only [List.length_cons] at hl
    have hi : i < (Vocab.words e.vocab).length := by omega
    have hstep : e.similarityRow q skip limit heap r i =
        if (Vocab.words e.vocab)[i] ∈ skip then .ok heap
        else addCandidate limit heap ⟨Scalar.dot r q, (Vocab.words e.vocab)[i]⟩ := by
      unfold similarityRow addCandidate
      rw [List.getElem?_eq_getElem hi]
      simp only [Res.unwrap, Res.ok_bind, List.contains_eq_mem, decide_eq_true_eq]
      rfl
    have hcand : candidates ((Vocab.words e.vocab).drop i) (r :: rows) q skip =
        if (Vocab.words e.vocab)[i] ∈ skip then candidates ((Vocab.words e.vocab).drop (i + 1)) rows q skip
        else ⟨Scalar.dot r q, (Vocab.words e.vocab)[i]⟩ ::
          candidates ((Vocab.words e.vocab).drop (i + 1)) rows q skip := by
      unfold candidates
      rw [List.drop_eq_getElem_cons hi, List.zip_cons_cons, List.filter_cons]
      by_cases hs : (Vocab.words e.vocab)[i] ∈ skip <;> simp [hs]
    rw [List.zipIdx_cons, List.foldlM_cons, hcand]
    show e.similarityRow q skip limit heap r i >>= _ = _
    rw [hstep]
    by_cases hs : (Vocab.words e.vocab)[i] ∈ skip
    · simp only [hs, if_true, Res.ok_bind]
      exact ih (i + 1) heap (by omega)
    · simp only [hs, if_false, List.foldlM_cons]
      cases addCandidate limit heap ⟨Scalar.dot r q, (Vocab.words e.vocab)[i]⟩ with
      | err x => rfl
      | panic => rfl
      | ok h' => exact ih (i + 1) h' (by omega)

theorem foldlM_zipIdx_shift {α β : Type} (f : β → α → Nat → Res β) (k : Nat) (l : List α) :
    ∀ (i : Nat) (b : β), (l.zipIdx i).foldlM (fun h p => f h p.1 (k + p.2)) b =
      (l.zipIdx (k + i)).foldlM (fun h p => f h p.1 p.2) b := by
  induction l with
  | nil => intro i b; rfl
  | cons x l ih =>
    intro i b
    rw [List.zipIdx_cons, List.zipIdx_cons, List.foldlM_cons, List.foldlM_cons]
    congr 1
    funext b'
    rw [ih, Nat.add_assoc]

omit [Storage S F] [StorageView S F] in
theorem batches_fold (e : Embeddings T V S F) (q : List F) (skip : List Str) (limit cols k : Nat)
    (hq : q.length = cols) : ∀ (n : Nat) (rows : List (List F)) (j : Nat) (heap : List (WordSim F)),
    rows.length ≤ n * k →
    ((chunks n k rows).zipIdx j).foldlM (e.similarityBatch q skip limit cols k) heap =
      (rows.zipIdx (j * k)).foldlM (fun h p => e.similarityRow q skip limit h p.1 p.2) heap := by
  intro n
  induction n with
  | zero =>
    intro rows j heap hl
    have : rows = [] := List.length_eq_zero_iff.mp (by omega)
    subst this; rfl
  | succ n ih =>
    intro rows j heap hl
    rw [chunks, List.zipIdx_cons, List.foldlM_cons]
    have hb : e.similarityBatch q skip limit cols k heap (rows.take k, j) =
        ((rows.take k).zipIdx (j * k)).foldlM (fun h p => e.similarityRow q skip limit h p.1 p.2) heap := by
      unfold similarityBatch
      simp only [hq, decide_true, Res.assert, if_true, Res.ok_bind]
      exact foldlM_zipIdx_shift (fun h r i => e.similarityRow q skip limit h r i) (j * k) (rows.take k) 0 heap
    rw [hb]
    have hsplit : rows.zipIdx (j * k) = (rows.take k).zipIdx (j * k) ++ (rows.drop k).zipIdx ((j + 1) * k) := by
      by_cases hk : k ≤ rows.length
      · conv => lhs; rw [← List.take_append_drop k rows]
        rw [List.zipIdx_append, List.length_take, Nat.min_eq_left hk, Nat.add_mul, Nat.one_mul]
      · rw [List.take_of_length_le (by omega), List.drop_eq_nil_of_le (by omega)]
        simp
    rw [hsplit, List.foldlM_append]
    congr 1
    funext h'
    refine ih (rows.drop k) (j + 1) h' ?_
    rw [List.length_drop, Nat.succ_mul] at *
    omega

/-- The batch size in effect is not zero. -/
def BatchOk (v : V) (batchSize : Option Nat) : Prop := batchSize.getD (Vocab.wordsLen v) ≠ 0

omit [Storage S F] in
/-- A query, without the batches: with any batch size other than zero it is a fold over the candidates. -/
theorem similarity_eq (e : Embeddings T V S F) (q : List F) (skip : List Str) (limit : Nat) (bs : Option Nat)
    (hb : BatchOk e.vocab bs) (hl : Vocab.wordsLen e.vocab = (Vocab.words e.vocab).length) :
    e.similarity q skip limit bs = (do
      Res.assert (decide (24 * limit ≤ isizeMax))
      let m ← view e.storage
      Res.assert (decide (Vocab.wordsLen e.vocab ≤ m.nrows))
      Res.assert (decide (q.length = m.cols) || (Vocab.words e.vocab).isEmpty)
      let heap ← (candidates (Vocab.words e.vocab) m.rows q skip).foldlM (addCandidate limit) []
      return intoSortedVec heap) := by
  unfold similarity BatchOk at *
  generalize hk : bs.getD (Vocab.wordsLen e.vocab) = k at *
  cases ha : Res.assert (decide (24 * limit ≤ isizeMax)) with
  | err x => rfl
  | panic => rfl
  | ok u =>
  simp only [Res.ok_bind]
  cases hv : view e.storage with
  | err x => rfl
  | panic => rfl
  | ok m =>
  simp only [Res.ok_bind]
  rcases Classical.em (Vocab.wordsLen e.vocab ≤ m.nrows) with hn | hn
  rotate_left
  · simp [hn, Res.assert]
  simp only [hn, decide_true, Res.assert, if_true, Res.ok_bind, axisChunks, hb, if_false]
  have hn' : (Vocab.words e.vocab).length ≤ m.rows.length := by rw [← hl]; exact hn
  have hcand : candidates (Vocab.words e.vocab) (m.rows.take (Vocab.wordsLen e.vocab)) q skip =
      candidates (Vocab.words e.vocab) m.rows q skip := by
    unfold candidates
    rw [hl]
    congr 2
    conv => rhs; rw [← List.take_append_drop (Vocab.words e.vocab).length m.rows]
    rw [← List.append_nil (Vocab.words e.vocab), List.zip_append (by simp; omega)]
    simp
  have hrl : (m.rows.take (Vocab.wordsLen e.vocab)).length = (Vocab.words e.vocab).length := by
    rw [List.length_take, hl]; omega
  generalize hrows : m.rows.take (Vocab.wordsLen e.vocab) = rows at *
  have hcount : rows.length ≤ (rows.length + k - 1) / k * k := by
    have h1 := Nat.div_add_mod (rows.length + k - 1) k
    have h2 := Nat.mod_lt (rows.length + k - 1) (Nat.pos_of_ne_zero hb)
    rw [Nat.mul_comm] at h1
    omega
  by_cases hq : q.length = m.cols
  · rw [batches_fold e q skip limit m.cols k hq _ rows 0 [] hcount]
    rw [Nat.zero_mul, rows_fold e q skip limit rows 0 [] (by omega), List.drop_zero, hcand]
    simp [hq]
  · cases hw : Vocab.words e.vocab with
    | nil =>
      have : rows = [] := List.length_eq_zero_iff.mp (by rw [hrl, hw]; rfl)
      subst this
      have : ([] : List (List F)).length + k - 1 = k - 1 := by simp
      rw [this, Nat.div_eq_of_lt (by omega)]
      simp [chunks, candidates]
    | cons w ws =>
      have hpos : 0 < (rows.length + k - 1) / k := by
        rw [hrl, hw, List.length_cons]
        exact Nat.div_pos (by omega) (by omega)
      obtain ⟨n, hn⟩ := Nat.exists_eq_add_of_lt hpos
      rw [Nat.zero_add] at hn
      rw [hn, chunks, List.zipIdx_cons, List.foldlM_cons]
      unfold similarityBatch
      simp [hq, Res.assert]

end

/-! ## C41 -/

section
variable {F : Type} [ScalarOrd F] [LawfulScalarOrd F]

theorem candidates_fold {limit : Nat} (hl : 1 ≤ limit) (cs : List (WordSim F)) :
    ∀ (done h : List (WordSim F)), IsBest limit h done → (∀ r ∈ done, Num r) → (∀ r ∈ cs, Num r) →
    ∃ h', cs.foldlM (addCandidate limit) h = .ok h' ∧ IsBest limit h' (done ++ cs) := by
  induction cs with
  | nil => intro done h hb _ _; exact ⟨h, rfl, by simpa using hb⟩
  | cons c cs ih =>
    intro done h hb hd hc
    obtain ⟨h1, e1, b1⟩ := heapAdd_best hl hb hd (hc c (by simp))
    have hc' : ScalarOrd.isNan c.similarity = false := hc c (by simp)
    obtain ⟨h2, e2, b2⟩ := ih (done ++ [c]) h1 b1 (by
      intro r hr
      rcases List.mem_append.mp hr with hr | hr
      · exact hd r hr
      · exact hc r (by simp_all)) fun r hr => hc r (by simp [hr])
    refine ⟨h2, ?_, by simpa using b2⟩
    rw [List.foldlM_cons]
    unfold addCandidate
    simp only [hc', Bool.not_false, Res.assert, if_true, Res.ok_bind, e1]
    exact e2

omit [LawfulScalarOrd F] in
theorem IsBest.perm {limit : Nat} {r r' cs : List (WordSim F)} (h : IsBest limit r cs) (hp : r'.Perm r) :
    IsBest limit r' cs := by
  obtain ⟨h1, o, h2, h3⟩ := h
  exact ⟨by rw [hp.length_eq]; exact h1, o, (hp.append_right o).trans h2,
    fun a ha b hb => h3 a (hp.mem_iff.mp ha) b hb⟩

/-- Specification: `r` are the best `limit` of the candidates, the best one first. -/
structure TopResults (limit : Nat) (cs r : List (WordSim F)) : Prop where
  /-- As many as asked for, if there are enough. -/
  length : r.length = min limit cs.length
  /-- Ordered by the ranking. -/
  sorted : r.Pairwise RanksBefore
  /-- Each is a candidate. -/
  mem : ∀ a ∈ r, a ∈ cs
  /-- No word twice. -/
  nodup : (r.map (·.word)).Nodup
  /-- Every candidate left out ranks after every result. -/
  rest : ∀ c ∈ cs, c ∉ r → ∀ a ∈ r, RanksBefore a c

omit [LawfulScalarOrd F] in
theorem TopResults.nodup' {limit : Nat} {cs r : List (WordSim F)} (h : TopResults limit cs r) : r.Nodup :=
  (List.pairwise_map.mp h.nodup).imp fun hw hab => hw (by rw [hab])

omit [LawfulScalarOrd F] in
theorem topResults_of {limit : Nat} {cs r : List (WordSim F)} (hb : IsBest limit r cs)
    (hs : r.Pairwise fun a b => ¬ RanksBefore b a) (hn : (cs.map (·.word)).Nodup) : TopResults limit cs r := by
  obtain ⟨h1, o, h2, h3⟩ := hb
  have hn' : ((r ++ o).map (·.word)).Nodup := (h2.map _).nodup_iff.mpr hn
  rw [List.map_append, List.nodup_append] at hn'
  obtain ⟨n1, n2, n3⟩ := hn'
  refine ⟨h1, ?_, fun a ha => h2.mem_iff.mp (by simp [ha]), n1, ?_⟩
  · have : r.Pairwise fun a b => a.word ≠ b.word := List.pairwise_map.mp n1
    exact (hs.and this).imp fun ⟨h, hw⟩ => (ranksBefore_total hw).resolve_right h
  · intro c hc hcr a ha
    have hco : c ∈ o := by
      rcases List.mem_append.mp (h2.mem_iff.mpr hc) with h | h
      · exact absurd h hcr
      · exact h
    exact (ranksBefore_total (n3 _ (List.mem_map_of_mem ha) _ (List.mem_map_of_mem hco))).resolve_right
      (h3 a ha c hco)

/-- The specification determines the results: there is only one list of top results. -/
theorem TopResults.unique {limit : Nat} {cs r r' : List (WordSim F)} (h : TopResults limit cs r)
    (h' : TopResults limit cs r') : r = r' := by
  have hsub : ∀ {r r' : List (WordSim F)}, TopResults limit cs r → TopResults limit cs r' → ∀ a ∈ r, a ∈ r' := by
    intro r r' h h' a ha
    rcases Classical.em (a ∈ r') with hm | hm
    · exact hm
    · -- all of `r'` ranks before `a`; some element of `r'` is not in `r` and ranks after `a`
      have hx : ∃ b ∈ r', b ∉ r := by
        rcases Classical.em (∃ b ∈ r', b ∉ r) with hx | hx
        · exact hx
        · have hall : ∀ b ∈ r', b ∈ r := fun b hb => Classical.byContradiction fun hbr => hx ⟨b, hb, hbr⟩
          have hnd : (a :: r').Nodup := List.nodup_cons.mpr ⟨hm, h'.nodup'⟩
          have hle := List.Nodup.length_le_of_subset (l₂ := r) hnd (by
            intro b hb
            rcases List.mem_cons.mp hb with rfl | hb
            · exact ha
            · exact hall b hb)
          have := h.length; have := h'.length
          simp only [List.length_cons] at hle
          omega
      obtain ⟨b, hb, hbr⟩ := hx
      exact absurd (h.rest b (h'.mem b hb) hbr a ha) (h'.rest a (h.mem a ha) hm b hb).asymm
  have hp : r.Perm r' := by
    refine (List.perm_ext_iff_of_nodup h.nodup' h'.nodup').mpr fun a => ⟨hsub h h' a, hsub h' h a⟩
  exact hp.eq_of_pairwise (fun a b _ _ h1 h2 => absurd h2 h1.asymm) h.sorted h'.sorted

end

section
variable {T V S F : Type} [Vocab V] [Storage S F] [StorageView S F] [Scalar F] [ScalarOrd F] [LawfulScalarOrd F]

/-- What a query needs: the matrix `m` is there and has a row for each word, the words are distinct, the batch size
is not zero, and the limit is at least one and not absurdly large. -/
structure QueryOk (e : Embeddings T V S F) (m : Mat F) (limit : Nat) (bs : Option Nat) : Prop where
  view : view e.storage = .ok m
  len : Vocab.wordsLen e.vocab = (Vocab.words e.vocab).length
  nodup : (Vocab.words e.vocab).Nodup
  rows : (Vocab.words e.vocab).length ≤ m.nrows
  batch : BatchOk e.vocab bs
  pos : 1 ≤ limit
  small : 24 * limit ≤ isizeMax

omit [Vocab V] [Storage S F] [StorageView S F] [ScalarOrd F] [LawfulScalarOrd F] in
theorem candidates_words_nodup {ws : List Str} (h : ws.Nodup) (rows : List (List F)) (q : List F)
    (skip : List Str) : ((candidates ws rows q skip).map (·.word)).Nodup := by
  unfold candidates
  rw [List.map_map]
  have h1 : (((ws.zip rows).filter fun p => p.1 ∉ skip).map (·.1)).Sublist ws := by
    refine List.Sublist.trans (List.filter_sublist.map _) ?_
    rw [List.zip_eq_zip_take_min, List.map_fst_zip (by simp)]
    exact List.take_sublist _ _
  exact h1.nodup h

omit [Storage S F] in
theorem similarity_top (e : Embeddings T V S F) {m : Mat F} {limit : Nat} {bs : Option Nat}
    (h : QueryOk e m limit bs) (q : List F) (skip : List Str) (hq : q.length = m.cols)
    (hn : ∀ c ∈ candidates (Vocab.words e.vocab) m.rows q skip, ScalarOrd.isNan c.similarity = false) :
    ∃ r, e.similarity q skip limit bs = .ok r ∧
      TopResults limit (candidates (Vocab.words e.vocab) m.rows q skip) r := by
  rw [similarity_eq e q skip limit bs h.batch h.len]
  have hr : Vocab.wordsLen e.vocab ≤ m.nrows := by rw [h.len]; exact h.rows
  obtain ⟨heap, h1, h2⟩ := candidates_fold h.pos (candidates (Vocab.words e.vocab) m.rows q skip) [] []
    ⟨by simp, [], by simp, by simp⟩ (by simp) hn
  simp only [h.small, h.view, hr, hq, decide_true, Res.assert, Bool.true_or, if_true, Res.ok_bind, h1,
    Res.pure_eq, Res.ok.injEq, exists_eq_left']
  have hp := intoSortedVec_perm heap
  rw [List.nil_append] at h2
  refine topResults_of (h2.perm hp) (intoSortedVec_sorted ?_) (candidates_words_nodup h.nodup _ _ _)
  intro x hx
  obtain ⟨_, o, h4, _⟩ := h2
  exact hn x (h4.mem_iff.mp (by simp [hx]))

/-- C41 for `word_similarity`. -/
theorem c41_word (e : Embeddings T V S F) {m : Mat F} {limit : Nat} {bs : Option Nat} (h : QueryOk e m limit bs)
    (w : Str) (q : List F) (he : e.embedding w = .ok (some q)) (hq : q.length = m.cols)
    (hn : ∀ c ∈ candidates (Vocab.words e.vocab) m.rows q [w], ScalarOrd.isNan c.similarity = false) :
    ∃ r, e.wordSimilarity w limit bs = .ok (some r) ∧
      TopResults limit (candidates (Vocab.words e.vocab) m.rows q [w]) r := by
  obtain ⟨r, h1, h2⟩ := similarity_top e h q [w] hq hn
  refine ⟨r, ?_, h2⟩
  unfold wordSimilarity
  simp only [he, Res.ok_bind, h1]
  rfl

omit [LawfulScalarOrd F] in
/-- `word_similarity` of a word without embedding. -/
theorem c41_unknown (e : Embeddings T V S F) (w : Str) (limit : Nat) (bs : Option Nat)
    (he : e.embedding w = .ok none) : e.wordSimilarity w limit bs = .ok none := by
  unfold wordSimilarity
  simp only [he, Res.ok_bind]
  rfl

omit [Storage S F] in
/-- C41 for `embedding_similarity_masked`; `q` is the query vector, normalised. -/
theorem c41_embedding (e : Embeddings T V S F) {m : Mat F} {limit : Nat} {bs : Option Nat}
    (h : QueryOk e m limit bs) (query : List F) (skip : List Str) (q : List F) (hqn : q = (l2Normalize query).1)
    (hq : query.length = m.cols)
    (hn : ∀ c ∈ candidates (Vocab.words e.vocab) m.rows q skip, ScalarOrd.isNan c.similarity = false) :
    ∃ r, e.embeddingSimilarityMasked query limit skip bs = .ok (some r) ∧
      TopResults limit (candidates (Vocab.words e.vocab) m.rows q skip) r := by
  subst hqn
  obtain ⟨r, h1, h2⟩ := similarity_top e h (l2Normalize query).1 skip (by rw [l2Normalize_length]; exact hq) hn
  refine ⟨r, ?_, h2⟩
  unfold embeddingSimilarityMasked
  rw [h1]; rfl

/-! ## C42 -/

end

section
variable {T V S F : Type} [Vocab V] [Storage S F] [StorageView S F] [Scalar F] [ScalarOrd F]

omit [Storage S F] in
theorem similarity_batch (e : Embeddings T V S F) (q : List F) (skip : List Str) (limit : Nat)
    (hl : Vocab.wordsLen e.vocab = (Vocab.words e.vocab).length) (b1 b2 : Option Nat)
    (h1 : BatchOk e.vocab b1) (h2 : BatchOk e.vocab b2) :
    e.similarity q skip limit b1 = e.similarity q skip limit b2 := by
  rw [similarity_eq e q skip limit b1 h1 hl, similarity_eq e q skip limit b2 h2 hl]

/-- C42: the outcome (results, or a panic) of any query is the same for all batch sizes other than zero, including
the default, which is the number of words. Nothing is assumed about the values. -/
theorem c42 (e : Embeddings T V S F) (hl : Vocab.wordsLen e.vocab = (Vocab.words e.vocab).length)
    (b1 b2 : Option Nat) (h1 : b1.getD (Vocab.words e.vocab).length ≠ 0)
    (h2 : b2.getD (Vocab.words e.vocab).length ≠ 0) (limit : Nat) :
    (∀ w, e.wordSimilarity w limit b1 = e.wordSimilarity w limit b2) ∧
    (∀ q skip, e.embeddingSimilarityMasked q limit skip b1 = e.embeddingSimilarityMasked q limit skip b2) ∧
    (∀ q, e.embeddingSimilarity q limit b1 = e.embeddingSimilarity q limit b2) ∧
    (∀ x y z r1 r2 r3, e.analogyMasked x y z r1 r2 r3 limit b1 = e.analogyMasked x y z r1 r2 r3 limit b2) ∧
    (∀ x y z, e.analogy x y z limit b1 = e.analogy x y z limit b2) := by
  have key : ∀ q skip, e.similarity q skip limit b1 = e.similarity q skip limit b2 := fun q skip =>
    similarity_batch e q skip limit hl b1 b2 (by unfold BatchOk; rw [hl]; exact h1)
      (by unfold BatchOk; rw [hl]; exact h2)
  have hm : ∀ q skip, e.embeddingSimilarityMasked q limit skip b1 = e.embeddingSimilarityMasked q limit skip b2 := by
    intro q skip
    unfold embeddingSimilarityMasked
    rw [key]
  have ha : ∀ x y z r1 r2 r3, e.analogyMasked x y z r1 r2 r3 limit b1 = e.analogyMasked x y z r1 r2 r3 limit b2 := by
    intro x y z r1 r2 r3
    unfold analogyMasked
    simp only [key]
  refine ⟨?_, hm, fun q => hm q [], ha, fun x y z => ha x y z _ _ _⟩
  intro w
  unfold wordSimilarity
  simp only [key]

/-! ## C43 -/

omit [Storage S F] in
/-- C43, exactly: given the matrix `m`, a query returns a result if the limit is not absurdly large, there is a row
for each word, the batch size is not zero, the query has the right length (or there are no words), no similarity is
NaN, and the limit is not zero (or there is no candidate). In all other cases it panics. -/
theorem similarity_ok_iff [LawfulScalarOrd F] (e : Embeddings T V S F) (q : List F) (skip : List Str)
    (limit : Nat) (bs : Option Nat) (m : Mat F) (hv : view e.storage = .ok m)
    (hl : Vocab.wordsLen e.vocab = (Vocab.words e.vocab).length) :
    ((∃ r, e.similarity q skip limit bs = .ok r) ↔
      24 * limit ≤ isizeMax ∧ (Vocab.words e.vocab).length ≤ m.nrows ∧
      bs.getD (Vocab.words e.vocab).length ≠ 0 ∧ (q.length = m.cols ∨ Vocab.words e.vocab = []) ∧
      (∀ c ∈ candidates (Vocab.words e.vocab) m.rows q skip, ScalarOrd.isNan c.similarity = false) ∧
      (limit = 0 → candidates (Vocab.words e.vocab) m.rows q skip = [])) ∧
    ((¬ ∃ r, e.similarity q skip limit bs = .ok r) → e.similarity q skip limit bs = .panic) := by
  have hone : ∀ l r, Res.NoErr (addCandidate (F := F) limit l r) := by
    intro l r
    unfold addCandidate heapAdd
    refine Res.noErr_bind (Res.noErr_assert _) fun _ => ?_
    split
    · exact Res.noErr_ok _
    · split
      · exact Res.noErr_panic
      · exact Res.noErr_ok _
  have hnoerr : ∀ (cs h : List (WordSim F)), Res.NoErr (cs.foldlM (addCandidate limit) h) := by
    intro cs
    induction cs with
    | nil => intro h; exact Res.noErr_ok _
    | cons c cs ih =>
      intro h; rw [List.foldlM_cons]
      exact Res.noErr_bind (hone _ _) fun _ => ih _
  by_cases hb : BatchOk e.vocab bs
  · have hb' : bs.getD (Vocab.words e.vocab).length ≠ 0 := by
      unfold BatchOk at hb; rw [hl] at hb; exact hb
    rw [similarity_eq e q skip limit bs hb hl]
    constructor
    · constructor
      · rintro ⟨r, h⟩
        obtain ⟨_, h1, h⟩ := Res.bind_eq_ok.mp h
        obtain ⟨m', hm', h⟩ := Res.bind_eq_ok.mp h
        rw [hv] at hm'; cases hm'
        obtain ⟨_, h2, h⟩ := Res.bind_eq_ok.mp h
        obtain ⟨_, h3, h⟩ := Res.bind_eq_ok.mp h
        obtain ⟨heap, h4, h⟩ := Res.bind_eq_ok.mp h
        simp only [assert_eq_ok, decide_eq_true_eq, Bool.or_eq_true, List.isEmpty_iff] at h1 h2 h3
        rw [hl] at h2
        refine ⟨h1, h2, hb', h3, ?_, ?_⟩
        · intro c hc
          obtain ⟨s1, s2, hstep⟩ := foldlM_ok_step h4 hc
          unfold addCandidate at hstep
          obtain ⟨_, ha, _⟩ := Res.bind_eq_ok.mp hstep
          simpa [assert_eq_ok] using ha
        · intro h0
          subst h0
          cases hc : candidates (Vocab.words e.vocab) m.rows q skip with
          | nil => rfl
          | cons c cs =>
            rw [hc, List.foldlM_cons] at h4
            obtain ⟨_, h5, _⟩ := Res.bind_eq_ok.mp h4
            unfold addCandidate at h5
            obtain ⟨_, _, h6⟩ := Res.bind_eq_ok.mp h5
            simp [heapAdd, heapMax] at h6
      · rintro ⟨h1, h2, _, h3, h4, h5⟩
        rw [← hl] at h2
        have h3' : (decide (q.length = m.cols) || (Vocab.words e.vocab).isEmpty) = true := by
          simpa using h3
        simp only [h1, hv, h2, h3', decide_true, Res.assert, if_true, Res.ok_bind]
        rcases Nat.eq_zero_or_pos limit with h0 | h0
        · rw [h5 h0]; exact ⟨_, rfl⟩
        · obtain ⟨heap, h6, _⟩ := candidates_fold h0 (candidates (Vocab.words e.vocab) m.rows q skip) [] []
            ⟨by simp, [], by simp, by simp⟩ (by simp) h4
          rw [h6]; exact ⟨_, rfl⟩
    · intro hno
      have : Res.NoErr (do
          Res.assert (decide (24 * limit ≤ isizeMax))
          let m ← view e.storage
          Res.assert (decide (Vocab.wordsLen e.vocab ≤ m.nrows))
          Res.assert (decide (q.length = m.cols) || (Vocab.words e.vocab).isEmpty)
          let heap ← (candidates (Vocab.words e.vocab) m.rows q skip).foldlM (addCandidate limit) []
          return intoSortedVec heap) := by
        refine Res.noErr_bind (Res.noErr_assert _) fun _ => ?_
        rw [hv]
        refine Res.noErr_bind (Res.noErr_ok _) fun _ => ?_
        refine Res.noErr_bind (Res.noErr_assert _) fun _ => ?_
        refine Res.noErr_bind (Res.noErr_assert _) fun _ => ?_
        exact Res.noErr_bind (hnoerr _ _) fun _ => Res.noErr_ok _
      cases hx : (do
          Res.assert (decide (24 * limit ≤ isizeMax))
          let m ← view e.storage
          Res.assert (decide (Vocab.wordsLen e.vocab ≤ m.nrows))
          Res.assert (decide (q.length = m.cols) || (Vocab.words e.vocab).isEmpty)
          let heap ← (candidates (Vocab.words e.vocab) m.rows q skip).foldlM (addCandidate limit) []
          return intoSortedVec heap : Res (List (WordSim F))) with
      | ok r => exact absurd ⟨r, hx⟩ hno
      | err x => exact absurd hx (this x)
      | panic => rfl
  · have hb' : ¬ bs.getD (Vocab.words e.vocab).length ≠ 0 := by
      unfold BatchOk at hb; rw [hl] at hb; exact hb
    have h0 : bs.getD (Vocab.wordsLen e.vocab) = 0 := by
      unfold BatchOk at hb; exact Classical.not_not.mp hb
    have hp : e.similarity q skip limit bs = .panic := by
      unfold similarity
      simp only [hv, h0, axisChunks, if_true, Res.ok_bind]
      unfold Res.assert
      split
      · simp only [Res.ok_bind]
        split <;> rfl
      · rfl
    rw [hp]
    refine ⟨⟨?_, fun h => absurd h.2.2.1 hb'⟩, fun _ => rfl⟩
    rintro ⟨r, hr⟩; cases hr

/-- No candidate for this query has similarity NaN. -/
def NoNan (e : Embeddings T V S F) (m : Mat F) (q : List F) : Prop :=
  ∀ p ∈ (Vocab.words e.vocab).zip m.rows, ScalarOrd.isNan (Scalar.dot p.2 q) = false

omit [Storage S F] [StorageView S F] in
theorem NoNan.candidates {e : Embeddings T V S F} {m : Mat F} {q : List F} (h : NoNan e m q) (skip : List Str) :
    ∀ c ∈ candidates (Vocab.words e.vocab) m.rows q skip, ScalarOrd.isNan c.similarity = false := by
  intro c hc
  unfold FF.candidates at hc
  obtain ⟨p, hp, rfl⟩ := List.mem_map.mp hc
  exact h p (List.mem_filter.mp hp).1

/-- The vector an analogy query looks for, before normalisation: `b - a + c` in each component. -/
def IsOffset (a b c t : List F) : Prop :=
  t.length = a.length ∧ t.length = b.length ∧ t.length = c.length ∧
  ∀ (i : Nat) (x y z : F), a[i]? = some x → b[i]? = some y → c[i]? = some z →
    t[i]? = some (Scalar.add (Scalar.sub y x) z)

omit [ScalarOrd F] in
theorem isOffset_eq {a b c t : List F} (h : IsOffset a b c t) :
    List.zipWith Scalar.add (List.zipWith Scalar.sub b a) c = t := by
  obtain ⟨h1, h2, h3, h4⟩ := h
  apply List.ext_getElem?
  intro i
  rw [List.getElem?_zipWith, List.getElem?_zipWith]
  by_cases hi : i < t.length
  · have e1 := List.getElem?_eq_getElem (l := a) (i := i) (by omega)
    have e2 := List.getElem?_eq_getElem (l := b) (i := i) (by omega)
    have e3 := List.getElem?_eq_getElem (l := c) (i := i) (by omega)
    rw [h4 i _ _ _ e1 e2 e3, e1, e2, e3]
  · rw [List.getElem?_eq_none (l := t) (by omega), List.getElem?_eq_none (l := b) (by omega)]

/-- C45: if the three words have embeddings, an analogy query is a similarity query for the normalised vector
`b - a + c`, not returning those of the words that are to be removed. -/
theorem analogy_eq (e : Embeddings T V S F) (x y z : Str) (r1 r2 r3 : Bool) (limit : Nat) (bs : Option Nat)
    {a b c t : List F} (ha : e.embedding x = .ok (some a)) (hb : e.embedding y = .ok (some b))
    (hc : e.embedding z = .ok (some c)) (ht : IsOffset a b c t) :
    e.analogyMasked x y z r1 r2 r3 limit bs =
      (e.similarity (l2Normalize t).1 (([(x, r1), (y, r2), (z, r3)].filter (·.2)).map (·.1)) limit bs).map .ok := by
  unfold analogyMasked lookupWords3
  simp only [ha, hb, hc, Res.ok_bind, Res.pure_eq, isOffset_eq ht]
  generalize e.similarity _ _ _ _ = r
  cases r <;> rfl

theorem mem_skip (w x y z : Str) (r1 r2 r3 : Bool) :
    w ∈ ([(x, r1), (y, r2), (z, r3)].filter (·.2)).map (·.1) ↔
      (w = x ∧ r1 = true) ∨ (w = y ∧ r2 = true) ∨ (w = z ∧ r3 = true) := by
  simp only [List.mem_map, List.mem_filter, List.mem_cons, List.not_mem_nil, or_false]
  constructor
  · rintro ⟨⟨v, b⟩, ⟨hm, hb⟩, rfl⟩
    rcases hm with hm | hm | hm <;> cases hm <;> simp_all
  · rintro (⟨rfl, h⟩ | ⟨rfl, h⟩ | ⟨rfl, h⟩)
    · exact ⟨(w, r1), ⟨.inl rfl, h⟩, rfl⟩
    · exact ⟨(w, r2), ⟨.inr (.inl rfl), h⟩, rfl⟩
    · exact ⟨(w, r3), ⟨.inr (.inr rfl), h⟩, rfl⟩

/-- C41 and C45 for analogy queries: the results are the best words for the normalised `b - a + c`. -/
theorem c45_vector [LawfulScalarOrd F] (e : Embeddings T V S F) {m : Mat F} {limit : Nat} {bs : Option Nat}
    (h : QueryOk e m limit bs) (x y z : Str) (r1 r2 r3 : Bool)
    {a b c t : List F} (ha : e.embedding x = .ok (some a)) (hb : e.embedding y = .ok (some b))
    (hc : e.embedding z = .ok (some c)) (ht : IsOffset a b c t) (hl : t.length = m.cols)
    (q : List F) (hq : q = (l2Normalize t).1) (hn : NoNan e m q)
    (skip : List Str) (hskip : ∀ w, w ∈ skip ↔ (w = x ∧ r1 = true) ∨ (w = y ∧ r2 = true) ∨ (w = z ∧ r3 = true)) :
    ∃ r, e.analogyMasked x y z r1 r2 r3 limit bs = .ok (.ok r) ∧
      TopResults limit (candidates (Vocab.words e.vocab) m.rows q skip) r := by
  subst hq
  have hs : ∀ w, w ∈ ([(x, r1), (y, r2), (z, r3)].filter (·.2)).map (·.1) ↔ w ∈ skip := by
    intro w
    rw [hskip]; exact mem_skip w x y z r1 r2 r3
  have hcand : candidates (Vocab.words e.vocab) m.rows (l2Normalize t).1
      (([(x, r1), (y, r2), (z, r3)].filter (·.2)).map (·.1)) =
      candidates (Vocab.words e.vocab) m.rows (l2Normalize t).1 skip := by
    unfold candidates
    congr 2
    funext p
    exact decide_eq_decide.mpr (not_congr (hs p.1))
  obtain ⟨r, h1, h2⟩ := similarity_top e h (l2Normalize t).1
    (([(x, r1), (y, r2), (z, r3)].filter (·.2)).map (·.1)) (by rw [l2Normalize_length]; exact hl)
    (hn.candidates _)
  refine ⟨r, ?_, by rw [← hcand]; exact h2⟩
  rw [analogy_eq e x y z r1 r2 r3 limit bs ha hb hc ht, h1]
  rfl

/-- C45, the error: an analogy query fails exactly if one of the words has no embedding, and it reports for each
word whether it has one. -/
theorem c45_error (e : Embeddings T V S F) (x y z : Str) (r1 r2 r3 : Bool) (limit : Nat) (bs : Option Nat)
    {a b c : Option (List F)} (ha : e.embedding x = .ok a) (hb : e.embedding y = .ok b)
    (hc : e.embedding z = .ok c) :
    ((∃ p, e.analogyMasked x y z r1 r2 r3 limit bs = .ok (.error p)) ↔ a = none ∨ b = none ∨ c = none) ∧
    ∀ p1 p2 p3, e.analogyMasked x y z r1 r2 r3 limit bs = .ok (.error (p1, p2, p3)) →
      (p1 = true ↔ ∃ v, e.embedding x = .ok (some v)) ∧ (p2 = true ↔ ∃ v, e.embedding y = .ok (some v)) ∧
      (p3 = true ↔ ∃ v, e.embedding z = .ok (some v)) := by
  unfold analogyMasked lookupWords3
  simp only [ha, hb, hc, Res.ok_bind, Res.pure_eq]
  cases a with
  | none => cases b <;> cases c <;> simp <;> (intro p1 p2 p3 h1 h2 h3; simp [← h1, ← h2, ← h3])
  | some a =>
    cases b with
    | none => cases c <;> simp <;> (intro p1 p2 p3 h1 h2 h3; simp [← h1, ← h2, ← h3])
    | some b =>
      cases c with
      | none => simp
      | some c =>
        simp only [reduceCtorEq, or_self, iff_false, not_exists]
        constructor
        · intro p hp
          simp only [Res.ok_bind] at hp
          obtain ⟨_, _, hp⟩ := Res.bind_eq_ok.mp hp
          cases hp
        · intro p1 p2 p3 hp
          simp only [Res.ok_bind] at hp
          obtain ⟨_, _, hp⟩ := Res.bind_eq_ok.mp hp
          cases hp

/-- C43, where it holds: with a limit of at least one that is not absurdly large and a batch size other than zero
(the default is only zero if there are no words) no query panics, as long as no similarity is NaN. -/
theorem c43_partial [LawfulScalarOrd F] (e : Embeddings T V S F) {m : Mat F} {limit : Nat} {bs : Option Nat}
    (h : QueryOk e m limit bs) (hd : e.dims = m.cols) (hb : BatchIsRows e.storage) (hr : RowsSized e.storage)
    (hlook : ∀ w, ∃ r, e.embedding w = .ok r) :
    (∀ w, (∀ q, e.embedding w = .ok (some q) → NoNan e m q) → ∃ r, e.wordSimilarity w limit bs = .ok r) ∧
    (∀ q skip, q.length = m.cols → NoNan e m (l2Normalize q).1 →
      ∃ r, e.embeddingSimilarityMasked q limit skip bs = .ok r) ∧
    (∀ q, q.length = m.cols → NoNan e m (l2Normalize q).1 → ∃ r, e.embeddingSimilarity q limit bs = .ok r) ∧
    (∀ x y z r1 r2 r3, (∀ a b c t, e.embedding x = .ok (some a) → e.embedding y = .ok (some b) →
        e.embedding z = .ok (some c) → IsOffset a b c t → NoNan e m (l2Normalize t).1) →
      ∃ r, e.analogyMasked x y z r1 r2 r3 limit bs = .ok r) := by
  have hm : ∀ q skip, q.length = m.cols → NoNan e m (l2Normalize q).1 →
      ∃ r, e.embeddingSimilarityMasked q limit skip bs = .ok r := by
    intro q skip hq hn
    obtain ⟨r, hr, _⟩ := c41_embedding e h q skip _ rfl hq (hn.candidates _)
    exact ⟨_, hr⟩
  refine ⟨?_, hm, fun q => hm q [], ?_⟩
  · intro w hn
    obtain ⟨o, ho⟩ := hlook w
    cases o with
    | none => exact ⟨_, c41_unknown e w limit bs ho⟩
    | some q =>
      obtain ⟨r, hr, _⟩ := c41_word e h w q ho (by rw [embedding_length e hb hr w q ho, hd])
        ((hn q ho).candidates _)
      exact ⟨_, hr⟩
  · intro x y z r1 r2 r3 hn
    obtain ⟨a, ha⟩ := hlook x
    obtain ⟨b, hb'⟩ := hlook y
    obtain ⟨c, hc⟩ := hlook z
    rcases Classical.em (a = none ∨ b = none ∨ c = none) with hnone | hnone
    · obtain ⟨p, hp⟩ := (c45_error e x y z r1 r2 r3 limit bs ha hb' hc).1.mpr hnone
      exact ⟨_, hp⟩
    · cases a with
      | none => simp at hnone
      | some a =>
      cases b with
      | none => simp at hnone
      | some b =>
      cases c with
      | none => simp at hnone
      | some c =>
      have l1 := embedding_length e hb hr x a ha
      have l2 := embedding_length e hb hr y b hb'
      have l3 := embedding_length e hb hr z c hc
      have ht : IsOffset a b c (List.zipWith Scalar.add (List.zipWith Scalar.sub b a) c) := by
        refine ⟨by simp [l1, l2, l3], by simp [l1, l2, l3], by simp [l1, l2, l3], ?_⟩
        intro i u v w hu hv hw
        simp [List.getElem?_zipWith, hu, hv, hw]
      obtain ⟨r, hr, _⟩ := c45_vector e h x y z r1 r2 r3 ha hb' hc ht
        (by rw [ht.1, l1, hd]) _ rfl (hn a b c _ ha hb' hc ht)
        (([(x, r1), (y, r2), (z, r3)].filter (·.2)).map (·.1)) (fun w => mem_skip w x y z r1 r2 r3)
      exact ⟨_, hr⟩

/-- C43 is false for limit 0: if there is a word other than the query, the query panics. -/
theorem c43_limit_zero [LawfulScalarOrd F] (e : Embeddings T V S F) (m : Mat F) (bs : Option Nat)
    (hv : view e.storage = .ok m) (hl : Vocab.wordsLen e.vocab = (Vocab.words e.vocab).length)
    (w : Str) (q : List F) (hq : e.embedding w = .ok (some q)) (w' : Str) (hw' : w' ∈ Vocab.words e.vocab)
    (hne : w' ≠ w) : e.wordSimilarity w 0 bs = .panic := by
  obtain ⟨hiff, hp⟩ := similarity_ok_iff e q [w] 0 bs m hv hl
  have : e.similarity q [w] 0 bs = .panic := by
    apply hp
    intro hex
    obtain ⟨_, hrows, _, _, _, h0⟩ := hiff.mp hex
    have h0 := h0 rfl
    obtain ⟨i, hi, rfl⟩ := List.mem_iff_getElem.mp hw'
    have hi' : i < m.rows.length := Nat.lt_of_lt_of_le hi hrows
    unfold candidates at h0
    rw [List.map_eq_nil_iff, List.filter_eq_nil_iff] at h0
    have := h0 ((Vocab.words e.vocab)[i], m.rows[i]) (by
      rw [List.mem_iff_getElem]
      exact ⟨i, by simp; omega, by simp⟩)
    simp at this
    exact hne this
  unfold wordSimilarity
  simp only [hq, Res.ok_bind, this]
  rfl

/-- C43 is false for batch size 0. -/
theorem c43_batch_zero [LawfulScalarOrd F] (e : Embeddings T V S F) (m : Mat F) (limit : Nat)
    (hv : view e.storage = .ok m) (hl : Vocab.wordsLen e.vocab = (Vocab.words e.vocab).length)
    (w : Str) (q : List F) (hq : e.embedding w = .ok (some q)) : e.wordSimilarity w limit (some 0) = .panic := by
  obtain ⟨hiff, hp⟩ := similarity_ok_iff e q [w] limit (some 0) m hv hl
  have : e.similarity q [w] limit (some 0) = .panic := hp fun hex => (hiff.mp hex).2.2.1 rfl
  unfold wordSimilarity
  simp only [hq, Res.ok_bind, this]
  rfl

omit [Storage S F] in
/-- C43 is false for embeddings without words and the default batch size. -/
theorem c43_no_words [LawfulScalarOrd F] (e : Embeddings T V S F) (m : Mat F) (limit : Nat)
    (hv : view e.storage = .ok m) (hl : Vocab.wordsLen e.vocab = 0) (hw : Vocab.words e.vocab = [])
    (query : List F) : e.embeddingSimilarity query limit none = .panic := by
  obtain ⟨hiff, hp⟩ := similarity_ok_iff e (l2Normalize query).1 [] limit none m hv (by rw [hl, hw]; rfl)
  have : e.similarity (l2Normalize query).1 [] limit none = .panic :=
    hp fun hex => (hiff.mp hex).2.2.1 (by rw [hw]; rfl)
  unfold embeddingSimilarity embeddingSimilarityMasked
  rw [this]; rfl

omit [Storage S F] in
/-- C43 is false for very large limits. -/
theorem c43_huge_limit (e : Embeddings T V S F) (limit : Nat) (bs : Option Nat) (query : List F)
    (hl : isizeMax < 24 * limit) : e.embeddingSimilarity query limit bs = .panic := by
  unfold embeddingSimilarity embeddingSimilarityMasked similarity
  have : ¬ 24 * limit ≤ isizeMax := by omega
  simp [this, Res.assert]

/-! ## C44 -/

omit [Storage S F] [StorageView S F] [Scalar F] [Vocab V] in
theorem heapMax_mem {h : List (WordSim F)} {m : WordSim F} {rest : List (WordSim F)}
    (hm : heapMax h = some (m, rest)) : ∀ x ∈ rest, x ∈ h := by
  induction h generalizing m rest with
  | nil => cases hm
  | cons x xs ih =>
    unfold heapMax at hm
    cases hx : heapMax xs with
    | none => rw [hx] at hm; cases hm; intro y hy; simp [hy]
    | some p =>
      obtain ⟨m', r'⟩ := p
      rw [hx] at hm
      dsimp only at hm
      split at hm <;> cases hm
      · intro y hy; simp [hy]
      · intro y hy
        rcases List.mem_cons.mp hy with rfl | hy
        · simp
        · simp [ih hx y hy]

theorem foldlM_inv {α σ : Type} {f : σ → α → Res σ} (P : σ → Prop) (hf : ∀ s a t, P s → f s a = .ok t → P t)
    {L : List α} {s t : σ} (hs : P s) (h : L.foldlM f s = .ok t) : P t := by
  induction L generalizing s with
  | nil => cases h; exact hs
  | cons x L ih =>
    rw [List.foldlM_cons] at h
    obtain ⟨s1, h1, h2⟩ := Res.bind_eq_ok.mp h
    exact ih (hf _ _ _ hs h1) h2

omit [Storage S F] in
/-- Results are never skipped words, and always vocabulary words. -/
theorem similarity_not_skip (e : Embeddings T V S F) (q : List F) (skip : List Str) (limit : Nat)
    (bs : Option Nat) (r : List (WordSim F)) (h : e.similarity q skip limit bs = .ok r) :
    ∀ a ∈ r, a.word ∉ skip ∧ a.word ∈ Vocab.words e.vocab := by
  unfold similarity at h
  obtain ⟨_, _, h⟩ := Res.bind_eq_ok.mp h
  obtain ⟨m, _, h⟩ := Res.bind_eq_ok.mp h
  obtain ⟨_, _, h⟩ := Res.bind_eq_ok.mp h
  obtain ⟨batches, _, h⟩ := Res.bind_eq_ok.mp h
  obtain ⟨heap, hheap, h⟩ := Res.bind_eq_ok.mp h
  cases h
  intro a ha
  refine (?_ : ∀ a ∈ heap, a.word ∉ skip ∧ a.word ∈ Vocab.words e.vocab) a
    ((intoSortedVec_perm heap).mem_iff.mp ha)
  refine foldlM_inv (fun l : List (WordSim F) => ∀ a ∈ l, a.word ∉ skip ∧ a.word ∈ Vocab.words e.vocab) ?_
    (by simp) hheap
  intro s b t hs hb
  unfold similarityBatch at hb
  obtain ⟨_, _, hb⟩ := Res.bind_eq_ok.mp hb
  refine foldlM_inv (fun l : List (WordSim F) => ∀ a ∈ l, a.word ∉ skip ∧ a.word ∈ Vocab.words e.vocab) ?_ hs hb
  intro s p t hs hp
  unfold similarityRow at hp
  obtain ⟨w, hw, hp⟩ := Res.bind_eq_ok.mp hp
  have hw := List.mem_of_getElem? (unwrap_eq_ok.mp hw)
  split at hp
  · cases hp; exact hs
  · rename_i hsk
    simp only [List.contains_eq_mem, decide_eq_true_eq] at hsk
    obtain ⟨_, _, hp⟩ := Res.bind_eq_ok.mp hp
    unfold heapAdd at hp
    split at hp
    · cases hp
      intro a ha
      rcases List.mem_cons.mp ha with rfl | ha
      · exact ⟨hsk, hw⟩
      · exact hs a ha
    · split at hp
      · cases hp
      · rename_i m' rest hmax
        cases hp
        split
        · intro a ha
          rcases List.mem_cons.mp ha with rfl | ha
          · exact ⟨hsk, hw⟩
          · exact hs a (heapMax_mem hmax a ha)
        · exact hs

/-- C44 for `word_similarity`: the query word is never returned. -/
theorem c44_word (e : Embeddings T V S F) (w : Str) (limit : Nat) (bs : Option Nat) (r : List (WordSim F))
    (h : e.wordSimilarity w limit bs = .ok (some r)) : ∀ a ∈ r, a.word ≠ w ∧ a.word ∈ Vocab.words e.vocab := by
  unfold wordSimilarity at h
  obtain ⟨o, _, h⟩ := Res.bind_eq_ok.mp h
  cases o with
  | none => cases h
  | some q =>
    obtain ⟨r', hr', h⟩ := Res.bind_eq_ok.mp h
    cases h
    intro a ha
    obtain ⟨h1, h2⟩ := similarity_not_skip e q [w] limit bs r hr' a ha
    exact ⟨fun h => h1 (by simp [h]), h2⟩

omit [Storage S F] in
/-- C44 for `embedding_similarity_masked`: words to skip are never returned. -/
theorem c44_masked (e : Embeddings T V S F) (q : List F) (skip : List Str) (limit : Nat) (bs : Option Nat)
    (r : List (WordSim F)) (h : e.embeddingSimilarityMasked q limit skip bs = .ok (some r)) :
    ∀ a ∈ r, a.word ∉ skip ∧ a.word ∈ Vocab.words e.vocab := by
  unfold embeddingSimilarityMasked at h
  obtain ⟨r', hr', h⟩ := Res.bind_eq_ok.mp h
  cases h
  exact similarity_not_skip e _ skip limit bs r hr'

/-- C44 for analogies: a query word with mask entry `true` is never returned. -/
theorem c44_analogy (e : Embeddings T V S F) (x y z : Str) (r1 r2 r3 : Bool) (limit : Nat) (bs : Option Nat)
    (r : List (WordSim F)) (h : e.analogyMasked x y z r1 r2 r3 limit bs = .ok (.ok r)) :
    ∀ a ∈ r, (r1 = true → a.word ≠ x) ∧ (r2 = true → a.word ≠ y) ∧ (r3 = true → a.word ≠ z) ∧
      a.word ∈ Vocab.words e.vocab := by
  unfold analogyMasked at h
  obtain ⟨o, _, h⟩ := Res.bind_eq_ok.mp h
  cases o with
  | error p => cases h
  | ok vs =>
    obtain ⟨v1, v2, v3⟩ := vs
    obtain ⟨r', hr', h⟩ := Res.bind_eq_ok.mp h
    cases h
    intro a ha
    obtain ⟨h1, h2⟩ := similarity_not_skip e _ _ limit bs r hr' a ha
    refine ⟨?_, ?_, ?_, h2⟩
    · intro hr he; subst hr; exact h1 (by simp [he])
    · intro hr he; subst hr; exact h1 (by cases r1 <;> simp [he])
    · intro hr he; subst hr; exact h1 (by cases r1 <;> cases r2 <;> simp [he])

/-- C44, the other direction: nothing else is left out. If the limit is large enough, every vocabulary word that is
not to be skipped is returned; for analogies these include query words with mask entry `false`. -/
theorem c44_kept [LawfulScalarOrd F] {ws : List Str} {rows : List (List F)} {q : List F} {skip : List Str}
    {limit : Nat} {r : List (WordSim F)} (h : TopResults limit (candidates ws rows q skip) r)
    (hl : ws.length ≤ limit) (hrows : ws.length ≤ rows.length) (w : Str) (hw : w ∈ ws) (hs : w ∉ skip) :
    ∃ a ∈ r, a.word = w := by
  obtain ⟨i, hi, rfl⟩ := List.mem_iff_getElem.mp hw
  have hc : (⟨Scalar.dot rows[i] q, ws[i]⟩ : WordSim F) ∈ candidates ws rows q skip := by
    unfold candidates
    refine List.mem_map.mpr ⟨(ws[i], rows[i]), List.mem_filter.mpr ⟨?_, by simpa using hs⟩, rfl⟩
    rw [List.mem_iff_getElem]
    exact ⟨i, by simp; omega, by simp⟩
  refine ⟨⟨Scalar.dot rows[i] q, ws[i]⟩, ?_, rfl⟩
  rcases Classical.em ((⟨Scalar.dot rows[i] q, ws[i]⟩ : WordSim F) ∈ r) with hm | hm
  · exact hm
  · have hnd : ((⟨Scalar.dot rows[i] q, ws[i]⟩ : WordSim F) :: r).Nodup := List.nodup_cons.mpr ⟨hm, h.nodup'⟩
    have hle := List.Nodup.length_le_of_subset (l₂ := candidates ws rows q skip) hnd (by
      intro b hb
      rcases List.mem_cons.mp hb with rfl | hb
      · exact hc
      · exact h.mem b hb)
    have h1 := h.length
    have h2 : (candidates ws rows q skip).length ≤ ws.length := by
      unfold candidates
      rw [List.length_map]
      refine Nat.le_trans (List.length_filter_le _ _) ?_
      rw [List.length_zip]; omega
    simp only [List.length_cons] at hle
    omega

end

/-! ## Embeddings from the constructors -/

theorem UsableVocab.words {v : VocabWrap} (h : UsableVocab v) :
    Vocab.wordsLen v = (Vocab.words v).length ∧ (Vocab.words v).Nodup := by
  have sub : ∀ {I : Type} [Indexer I] {ws : List Str} {m M : Nat} {ix : I} {bow eow : Str} {v : SubwordVocab I},
      SubwordVocab.newWithBoundaries ws m M ix bow eow = .ok v →
      Vocab.wordsLen v = (Vocab.words v).length ∧ (Vocab.words v).Nodup := by
    intro I _ ws m M ix bow eow v hv
    have h22 := c22_subword ws m M ix bow eow v hv
    exact ⟨by rw [h22.1]; exact h22.2.1, by rw [h22.1]; exact (SubwordVocab.newWithBoundaries_eq_ok.mp hv).1⟩
  cases v with
  | simple v =>
    obtain ⟨ws, h⟩ := h
    have h22 := c22_simple ws v h
    refine ⟨?_, ?_⟩
    · show Vocab.wordsLen v = (Vocab.words v).length
      rw [h22.1]; exact h22.2.1
    · show (Vocab.words v).Nodup
      rw [h22.1]; exact (SimpleVocab.new_eq_ok.mp h).1
  | bucket v => obtain ⟨e, ix, ws, m, M, bow, eow, h1, h2, h3, h4⟩ := h; exact sub h2
  | fastText v => obtain ⟨b, ix, ws, m, M, bow, eow, h1, h0, h2, h3, h4⟩ := h; exact sub h2
  | explicit v => obtain ⟨ix, ws, m, M, bow, eow, h1, h2, h3, h4⟩ := h; exact sub h2
  | floret v => obtain ⟨nb, nh, seed, ix, ws, m, M, bow, eow, h1, h2, h3, h4⟩ := h; exact sub h2

/-- Embeddings with any vocabulary from the constructors and an array of the right height meet the conditions of
the theorems above. -/
theorem queryOk_of_new {T F : Type} (metadata : Option (Metadata T)) (v : VocabWrap) (a : NdArray F)
    (n : NdNorms F) (e : Embeddings T VocabWrap (NdArray F) F)
    (he : Embeddings.new metadata v a n = .ok e) (hv : UsableVocab v)
    {limit : Nat} (hp : 1 ≤ limit) (hs : 24 * limit ≤ isizeMax) {bs : Option Nat}
    (hb : bs.getD (Vocab.words v).length ≠ 0) : QueryOk e a.inner limit bs := by
  obtain ⟨k, hk, hin, _⟩ := hv.inside
  obtain ⟨hok, hpanic⟩ := c36_new metadata v a n k hk
  by_cases hcond : Vocab.wordsLen v = n.inner.length ∧ k = (shape a).1
  · rw [hok hcond] at he
    cases he
    refine ⟨rfl, hv.words.1, hv.words.2, ?_, ?_, hp, hs⟩
    · rw [← hv.words.1]
      refine Nat.le_trans hin ?_
      rw [hcond.2]; exact Nat.le_refl _
    · unfold BatchOk; rw [hv.words.1]; exact hb
  · rw [hpanic hcond] at he; cases he

/-- Embeddings of the examples: three words, two of them equally similar to the third. -/
def exampleQuery : Embeddings Str SimpleVocab (NdArray F32) F32 :=
  ⟨none, ⟨⟨2, [[1, 0], [2, 1], [2, 5]]⟩⟩, ⟨indexMap [['a'], ['c'], ['b']], [['a'], ['c'], ['b']]⟩, none⟩

attribute [local instance] exampleScalar in
/-- The hypotheses of the theorems above hold for a concrete case, with a tie that is broken by the word. -/
example : QueryOk exampleQuery ⟨2, [[1, 0], [2, 1], [2, 5]]⟩ 2 (some 2) ∧
    exampleQuery.embedding ['a'] = .ok (some [1, 0]) ∧ exampleQuery.embedding ['b'] = .ok (some [2, 5]) ∧
    exampleQuery.embedding ['c'] = .ok (some [2, 1]) ∧ exampleQuery.embedding ['d'] = .ok none ∧
    NoNan exampleQuery ⟨2, [[1, 0], [2, 1], [2, 5]]⟩ [1, 0] ∧
    IsOffset (F := F32) [2, 1] [2, 5] [1, 0] [1, 4] ∧
    exampleQuery.wordSimilarity ['a'] 2 (some 2) = .ok (some [⟨2, ['b']⟩, ⟨2, ['c']⟩]) ∧
    exampleQuery.wordSimilarity ['a'] 1 none = .ok (some [⟨2, ['b']⟩]) ∧
    exampleQuery.wordSimilarity ['b'] 5 (some 1) = .ok (some [⟨9, ['c']⟩, ⟨2, ['a']⟩]) ∧
    exampleQuery.wordSimilarity ['a'] 0 none = .panic ∧
    exampleQuery.wordSimilarity ['a'] 1 (some 0) = .panic ∧
    (exampleQuery.analogy ['a'] ['d'] ['b'] 2 none).map (fun r => match r with | .error p => some p | _ => none) =
      .ok (some (true, false, true)) := by
  refine ⟨⟨rfl, rfl, by decide, by decide, by unfold BatchOk; decide, by decide, by decide⟩, by decide +kernel,
    by decide +kernel,
    by decide +kernel, by decide +kernel, ?_, ⟨rfl, rfl, rfl, ?_⟩, by decide +kernel, by decide +kernel,
    by decide +kernel, by decide +kernel, by decide +kernel, by decide +kernel⟩
  · unfold NoNan; decide +kernel
  · intro i x y z h1 h2 h3
    match i with
    | 0 => cases h1; cases h2; cases h3; rfl
    | 1 => cases h1; cases h2; cases h3; rfl
    | n + 2 => cases h1

theorem exampleQuery_ok : QueryOk exampleQuery ⟨2, [[1, 0], [2, 1], [2, 5]]⟩ 2 (some 2) :=
  ⟨rfl, rfl, by decide, by decide, by unfold BatchOk; decide, by decide, by decide⟩

section
attribute [local instance] exampleScalar

theorem exampleQuery_offset : IsOffset (F := F32) [2, 1] [2, 5] [1, 0] [1, 4] := by
  refine ⟨rfl, rfl, rfl, ?_⟩
  intro i x y z h1 h2 h3
  match i with
  | 0 => cases h1; cases h2; cases h3; rfl
  | 1 => cases h1; cases h2; cases h3; rfl
  | n + 2 => cases h1

/-- `c41_word`, `c41_unknown` and `c41_embedding` applied to the example. -/
example := c41_word exampleQuery exampleQuery_ok ['a'] [1, 0] (by decide +kernel) rfl (by decide +kernel)
example := c41_unknown exampleQuery ['d'] 2 (some 2) (by decide +kernel)
example := c41_embedding exampleQuery exampleQuery_ok [1, 4] [['b']] _ rfl rfl (by decide +kernel)

/-- `c42` and `similarity_ok_iff` applied to it. -/
example := c42 exampleQuery rfl (some 2) none (by decide) (by decide) 2
example := similarity_ok_iff exampleQuery [1, 0] [['a']] 2 none ⟨2, [[1, 0], [2, 1], [2, 5]]⟩ rfl rfl

/-- `c45_vector` and `c45_error` applied to it: the question about all three words, and one about an unknown word. -/
example := c45_vector exampleQuery exampleQuery_ok ['c'] ['b'] ['a'] true false true (a := [2, 1]) (b := [2, 5])
  (c := [1, 0]) (by decide +kernel) (by decide +kernel) (by decide +kernel) exampleQuery_offset rfl _ rfl
  (by unfold NoNan; decide +kernel) [['c'], ['a']] (by simp)
example := c45_error exampleQuery ['a'] ['d'] ['b'] true true true 2 none (a := some [1, 0]) (b := none)
  (c := some [2, 5]) (by decide +kernel) (by decide +kernel) (by decide +kernel)

/-- `c43_partial`, `c43_limit_zero`, `c43_batch_zero` and `c43_huge_limit` applied to it. -/
example := c43_partial exampleQuery exampleQuery_ok rfl (c47_array _)
  (NdArray.rowsSized (by intro r hr; revert r; decide))
  (c36_no_panic exampleQuery (fun _ => ⟨_, rfl⟩) (c24_simple [['a'], ['c'], ['b']] _ rfl) ⟨rfl, by intro n h; cases h⟩
    (c47_array _) (NdArray.rowsSized (by intro r hr; revert r; decide)) (NdArray.rowsTotal _) (fun _ _ => rfl)).1
example := c43_limit_zero exampleQuery ⟨2, [[1, 0], [2, 1], [2, 5]]⟩ none rfl rfl ['a'] [1, 0] (by decide +kernel) ['b']
  (by decide) (by decide)
example := c43_batch_zero exampleQuery ⟨2, [[1, 0], [2, 1], [2, 5]]⟩ 2 rfl rfl ['a'] [1, 0] (by decide +kernel)
example := c43_huge_limit exampleQuery usizeMax none [1, 0] (by decide)

/-- `c44_word`, `c44_masked`, `c44_analogy` and `c44_kept` applied to it. -/
example := c44_word exampleQuery ['a'] 2 (some 2) [⟨2, ['b']⟩, ⟨2, ['c']⟩] (by decide +kernel)
example : ∃ r, exampleQuery.embeddingSimilarityMasked [1, 4] 2 [['b']] none = .ok (some r) ∧
    ∀ a ∈ r, a.word ∉ [['b']] ∧ a.word ∈ [['a'], ['c'], ['b']] :=
  ⟨_, rfl, c44_masked exampleQuery [1, 4] [['b']] 2 none _ rfl⟩
example : ∃ r, exampleQuery.analogyMasked ['c'] ['b'] ['a'] true false true 2 none = .ok (.ok r) ∧
    ∀ a ∈ r, (true = true → a.word ≠ ['c']) ∧ (false = true → a.word ≠ ['b']) ∧ (true = true → a.word ≠ ['a']) ∧
      a.word ∈ [['a'], ['c'], ['b']] :=
  ⟨_, rfl, c44_analogy exampleQuery ['c'] ['b'] ['a'] true false true 2 none _ rfl⟩
example : ∃ r, exampleQuery.embeddingSimilarityMasked [1, 4] 3 [['b']] none = .ok (some r) ∧ ∃ a ∈ r, a.word = ['c'] := by
  have h : QueryOk exampleQuery ⟨2, [[1, 0], [2, 1], [2, 5]]⟩ 3 none :=
    ⟨rfl, rfl, by decide, by decide, by unfold BatchOk; decide, by decide, by decide⟩
  obtain ⟨r, h1, h2⟩ := c41_embedding exampleQuery h [1, 4] [['b']] _ rfl rfl (by decide +kernel)
  exact ⟨r, h1, c44_kept h2 (by decide) (by decide) ['c'] (by decide) (by decide)⟩

/-- `TopResults.unique` applied to it: any other list with the properties of the results is the same list. -/
example (r : List (WordSim F32)) (h : TopResults 2 (candidates [['a'], ['c'], ['b']] [[1, 0], [2, 1], [2, 5]] [1, 0] [['a']]) r) :
    r = [⟨2, ['b']⟩, ⟨2, ['c']⟩] := by
  obtain ⟨r', h1, h2⟩ := c41_word exampleQuery exampleQuery_ok ['a'] [1, 0] (by decide +kernel) rfl (by decide +kernel)
  rw [show exampleQuery.wordSimilarity ['a'] 2 (some 2) = .ok (some [⟨2, ['b']⟩, ⟨2, ['c']⟩]) by decide +kernel] at h1
  cases h1
  exact TopResults.unique h h2

/-- `queryOk_of_new` applied to embeddings with a subword vocabulary. -/
example := queryOk_of_new (none : Option (Metadata Str)) exampleVocab
  (⟨⟨2, [[1, 2], [3, 4], [5, 6], [7, 8], [9, 10], [11, 12]]⟩⟩ : NdArray F32) ⟨[7, 8]⟩ _ rfl exampleVocab_usable
  (limit := 2) (by decide) (by decide) (bs := none) (by decide)

end

/-- Embeddings without words, for `c43_no_words`. -/
example : Vocab.words (⟨HMap.empty, []⟩ : SimpleVocab) = [] ∧ isizeMax < 24 * usizeMax := by decide

end FF
