import Verif.Props.FloatScale
import Verif.Props.Quantize
import Verif.Props.Ranking

/-!
# Symmetries of similarities and analogies (C118)

The similarities are bit-exact single precision. They do not depend on the order of two words; they are opposite for opposite queries; the
signs of zeros in a query do not matter; and the analogy "a is to a as c is to" is the query for the vector of `c`.
-/

namespace FF
open Storage

/-! ## The words to skip are a set -/

section
open Embeddings
variable {T V S F : Type} [Vocab V] [StorageView S F] [Scalar F] [ScalarOrd F]

/-- A query depends on the members of the skipped words only. -/
theorem similarity_skip_congr (e : Embeddings T V S F) (q : List F) {skip skip' : List Str} (h : ∀ w, w ∈ skip ↔ w ∈ skip')
    (limit : Nat) (bs : Option Nat) : e.similarity q skip limit bs = e.similarity q skip' limit bs := by
  have hc : ∀ w, skip.contains w = skip'.contains w := fun w => by
    rw [Bool.eq_iff_iff, List.contains_iff_mem, List.contains_iff_mem]; exact h w
  have hr : e.similarityRow q skip limit = e.similarityRow q skip' limit := by
    funext heap row i
    unfold similarityRow
    simp only [hc]
  have hb : e.similarityBatch q skip limit = e.similarityBatch q skip' limit := by
    funext cols b heap p
    unfold similarityBatch
    rw [hr]
  unfold similarity
  rw [hb]

/-- A query depends on the inner products with the rows only. -/
theorem similarity_query_congr (e : Embeddings T V S F) {q q' : List F} (hl : q.length = q'.length)
    (h : ∀ row : List F, Scalar.dot row q = Scalar.dot row q') (skip : List Str) (limit : Nat) (bs : Option Nat) :
    e.similarity q skip limit bs = e.similarity q' skip limit bs := by
  have hr : e.similarityRow q skip limit = e.similarityRow q' skip limit := by
    funext heap row i
    unfold similarityRow
    simp only [h]
  have hb : e.similarityBatch q skip limit = e.similarityBatch q' skip limit := by
    funext cols b heap p
    unfold similarityBatch
    rw [hr, hl]
  unfold similarity
  rw [hb]

end

namespace Ieee

attribute [local instance] scalar

/-! ## Symmetry -/

theorem mul_comm' (x y : F32) : mul x y = mul y x := by
  unfold mul
  rw [Bool.or_comm (isNan x), Bool.or_comm (isInf x), Bool.or_comm (f32Mag x == 0), Nat.mul_comm (magUnits (f32Mag x)),
    show (isNeg x != isNeg y) = (isNeg y != isNeg x) by cases isNeg x <;> cases isNeg y <;> rfl]

/-- Inner products do not depend on the order of the vectors. -/
theorem dot_comm (x y : List F32) : unrolledDot x y = unrolledDot y x := by
  unfold unrolledDot
  congr 1
  induction x generalizing y with
  | nil => simp
  | cons a x ih =>
    cases y with
    | nil => simp
    | cons b y => rw [List.zipWith_cons_cons, List.zipWith_cons_cons, mul_comm', ih]

variable {T V S : Type} [Vocab V] [Storage S F32] [StorageView S F32]

/-- Specification: lookups of the words of the vocabulary give the rows of the matrix. -/
structure RowsOfWords (e : Embeddings T V S F32) : Prop where
  words : WordsOk e.vocab
  index : ∀ (i : Nat) (w : Str), (Vocab.words e.vocab)[i]? = some w → Vocab.idx e.vocab w = .ok (some (.word i))
  view : ViewIsRows e.storage

theorem candidate_dot {e : Embeddings T V S F32} (h : RowsOfWords e) {m : Mat F32} (hm : StorageView.view e.storage = .ok m) {q : List F32}
    {skip : List Str} {s : F32} {w : Str} (hc : (⟨s, w⟩ : WordSim F32) ∈ candidates (Vocab.words e.vocab) m.rows q skip) :
    w ∉ skip ∧ w ∈ Vocab.words e.vocab ∧ ∃ row, e.embedding w = .ok (some row) ∧ s = unrolledDot row q := by
  unfold candidates at hc
  obtain ⟨⟨w', row⟩, h1, h2⟩ := List.mem_map.mp hc
  obtain ⟨h3, h4⟩ := List.mem_filter.mp h1
  cases h2
  refine ⟨by simpa using h4, (List.of_mem_zip h3).1, row, ?_, rfl⟩
  obtain ⟨i, hi, he⟩ := List.mem_iff_getElem.mp h3
  rw [List.getElem_zip] at he
  rw [List.length_zip] at hi
  have e1 : (Vocab.words e.vocab)[i]? = some w' := by
    rw [List.getElem?_eq_getElem (by omega)]; exact congrArg some (Prod.mk.inj he).1
  have e2 : m.rows[i]'(by omega) = row := (Prod.mk.inj he).2
  unfold Embeddings.embedding
  rw [h.index i w' e1]
  simp only [Res.ok_bind]
  rw [(h.view m hm).2.2 i (by omega), e2]
  rfl

theorem mem_candidates {e : Embeddings T V S F32} (h : RowsOfWords e) {m : Mat F32} (hm : StorageView.view e.storage = .ok m)
    (hn : (Vocab.words e.vocab).length ≤ m.nrows) {q : List F32} {skip : List Str} {w : Str} (hw : w ∈ Vocab.words e.vocab)
    (hs : w ∉ skip) {row : List F32} (hr : e.embedding w = .ok (some row)) :
    (⟨unrolledDot row q, w⟩ : WordSim F32) ∈ candidates (Vocab.words e.vocab) m.rows q skip := by
  obtain ⟨i, hi, rfl⟩ := List.mem_iff_getElem.mp hw
  have hi' : i < m.rows.length := lt_of_lt_of_le hi hn
  unfold Embeddings.embedding at hr
  rw [h.index i _ (List.getElem?_eq_getElem hi)] at hr
  simp only [Res.ok_bind] at hr
  rw [(h.view m hm).2.2 i hi'] at hr
  cases hr
  unfold candidates
  refine List.mem_map.mpr ⟨((Vocab.words e.vocab)[i], m.rows[i]), List.mem_filter.mpr ⟨?_, by simpa using hs⟩, rfl⟩
  refine List.mem_iff_getElem.mpr ⟨i, by rw [List.length_zip]; exact lt_min hi hi', by rw [List.getElem_zip]⟩

theorem wordSimilarity_ok {e : Embeddings T V S F32} {a : Str} {limit : Nat} {bs : Option Nat} {r : List (WordSim F32)}
    (h : e.wordSimilarity a limit bs = .ok (some r)) :
    ∃ q, e.embedding a = .ok (some q) ∧ e.similarity q [a] limit bs = .ok r := by
  unfold Embeddings.wordSimilarity at h
  obtain ⟨o, h1, h⟩ := Res.bind_eq_ok.mp h
  cases o with
  | none => cases h
  | some q =>
    obtain ⟨r', h2, h⟩ := Res.bind_eq_ok.mp h
    cases h
    exact ⟨q, h1, h2⟩

/-- **C118** (symmetry). If `b` is among the words similar to `a`, and `a` among those similar to `b`, then with the same similarity,
bit by bit, whatever the limits and batch sizes of the two queries. -/
theorem c118_symmetric (e : Embeddings T V S F32) (h : RowsOfWords e) (a b : Str) (limit limit' : Nat) (h1 : 1 ≤ limit)
    (h1' : 1 ≤ limit') (bs bs' : Option Nat) (r r' : List (WordSim F32)) (ha : e.wordSimilarity a limit bs = .ok (some r))
    (hb : e.wordSimilarity b limit' bs' = .ok (some r')) (s s' : F32) (hs : ⟨s, b⟩ ∈ r) (hs' : ⟨s', a⟩ ∈ r') : s = s' := by
  obtain ⟨qa, ea, ha⟩ := wordSimilarity_ok ha
  obtain ⟨qb, eb, hb⟩ := wordSimilarity_ok hb
  obtain ⟨m, hm, -, -, -, -, -, ta⟩ := similarity_ok_top h.words h1 ha
  obtain ⟨m', hm', -, -, -, -, -, tb⟩ := similarity_ok_top h.words h1' hb
  obtain ⟨-, -, x, ex, rfl⟩ := candidate_dot h hm (ta.mem _ hs)
  obtain ⟨-, -, y, ey, rfl⟩ := candidate_dot h hm' (tb.mem _ hs')
  rw [ea] at ey; cases ey
  rw [eb] at ex; cases ex
  exact dot_comm _ _

omit [Vocab V] [Storage S F32] [StorageView S F32] in
theorem TopResults.all {limit : Nat} {cs r : List (WordSim F32)} (h : TopResults limit cs r) (hn : cs.length ≤ limit) {c : WordSim F32}
    (hc : c ∈ cs) : c ∈ r := by
  have hl : r.length = cs.length := by rw [h.length]; omega
  have hsub : r ⊆ cs := fun x hx => h.mem x hx
  have hp : r.Perm cs := (h.nodup'.subperm hsub).perm_of_length_le (by omega)
  exact hp.mem_iff.mpr hc

/-- **C118** (symmetry, without limits). If the limits are not below the number of words, then each of two different words of the
vocabulary is in the results for the other one. -/
theorem c118_mutual (e : Embeddings T V S F32) (h : RowsOfWords e) (a b : Str) (hab : a ≠ b) (hwa : a ∈ Vocab.words e.vocab)
    (limit limit' : Nat) (hl : (Vocab.words e.vocab).length ≤ limit) (hl' : (Vocab.words e.vocab).length ≤ limit')
    (bs bs' : Option Nat) (r r' : List (WordSim F32)) (ha : e.wordSimilarity a limit bs = .ok (some r))
    (hb : e.wordSimilarity b limit' bs' = .ok (some r')) (s : F32) (hs : ⟨s, b⟩ ∈ r) : ⟨s, a⟩ ∈ r' := by
  have hpos : 1 ≤ (Vocab.words e.vocab).length := List.length_pos_of_mem hwa
  obtain ⟨qa, ea, ha⟩ := wordSimilarity_ok ha
  obtain ⟨qb, eb, hb⟩ := wordSimilarity_ok hb
  obtain ⟨m, hm, -, -, -, -, -, ta⟩ := similarity_ok_top h.words (by omega) ha
  obtain ⟨m', hm', -, hn, -, -, -, tb⟩ := similarity_ok_top h.words (by omega) hb
  obtain ⟨-, -, x, ex, rfl⟩ := candidate_dot h hm (ta.mem _ hs)
  rw [eb] at ex; cases ex
  rw [dot_comm]
  refine TopResults.all tb ?_ (mem_candidates h hm' hn hwa (by simpa using hab) ea)
  refine le_trans ?_ hl'
  unfold candidates
  rw [List.length_map]
  refine le_trans (List.length_filter_le _ _) ?_
  rw [List.length_zip]
  exact min_le_left _ _

/-! ## The signs of zeros -/

/-- Specification: the same number, except that zeros may have different signs. -/
def SameButZero (x y : F32) : Prop := x = y ∨ (f32Mag x = 0 ∧ f32Mag y = 0)

/-- The same number, and not negative zero. -/
def NotNegZero (x y : F32) : Prop := x = y ∧ ¬ (f32Mag x = 0 ∧ isNeg x = true)

theorem finite_of_mag {x : F32} (h : f32Mag x = 0) : Finite x := by unfold Finite; rw [h]; decide

theorem SameButZero.mul {x y : F32} (h : SameButZero x y) (z : F32) : SameButZero (Ieee.mul z x) (Ieee.mul z y) := by
  rcases h with rfl | ⟨hx, hy⟩
  · exact .inl rfl
  · have fx := finite_of_mag hx
    have fy := finite_of_mag hy
    unfold Ieee.mul
    simp only [fx.notNan, fy.notNan, fx.notInf, fy.notInf, hx, hy, Bool.or_false, magUnits_zero, Nat.mul_zero, beq_self_eq_true,
      Bool.or_true, if_true]
    split
    · exact .inl rfl
    · split
      · exact .inl rfl
      · have h0 : roundMag 0 (2 ^ 149) = 0 := by decide
        rw [h0]
        exact .inr ⟨pack_mag (by decide), pack_mag (by decide)⟩

theorem add_not_negZero {a x : F32} (h : ¬ (f32Mag a = 0 ∧ isNeg a = true)) :
    ¬ (f32Mag (Ieee.add a x) = 0 ∧ isNeg (Ieee.add a x) = true) := by
  have hinf : ∀ y : F32, isInf y = true → f32Mag y ≠ 0 := fun y hy => by
    unfold isInf at hy
    rw [beq_iff_eq] at hy
    rw [hy]; decide
  unfold Ieee.add
  split
  · decide
  · split
    · split
      · decide
      · rename_i h1 _
        exact fun hc => hinf a h1 hc.1
    · split
      · rename_i h1
        exact fun hc => hinf x h1 hc.1
      · dsimp only
        split
        · rename_i h0
          rintro ⟨-, h2⟩
          rw [pack_neg (by decide), Bool.and_eq_true] at h2
          have ha : f32Mag a ≠ 0 := fun hc => h ⟨hc, h2.1⟩
          have p := magUnits_pos ha
          unfold units at h0
          rw [h2.1, h2.2] at h0
          simp only [if_true] at h0
          omega
        · rename_i h0
          rintro ⟨h2, -⟩
          rw [pack_mag (roundMag_le _ _), roundMag_eq] at h2
          have h3 : rawMag 1 1 ≤ rawMag (units a + units x).natAbs 1 := rawMag_mono (by norm_num) (by norm_num) (by omega)
          have h4 : rawMag 1 1 = 1 := by decide
          have h5 : 0 < infMag := by decide
          omega

theorem add_zero_eq {a x y : F32} (ha : ¬ (f32Mag a = 0 ∧ isNeg a = true)) (hx : f32Mag x = 0) (hy : f32Mag y = 0) :
    Ieee.add a x = Ieee.add a y := by
  have fx := finite_of_mag hx
  have fy := finite_of_mag hy
  have ux : units x = 0 := by unfold units; rw [hx, magUnits_zero]; simp
  have uy : units y = 0 := by unfold units; rw [hy, magUnits_zero]; simp
  unfold Ieee.add
  simp only [fx.notNan, fy.notNan, fx.notInf, fy.notInf, ux, uy, Int.add_zero, Bool.false_and, Bool.false_eq_true, if_false]
  by_cases h0 : units a = 0
  · simp only [h0, if_true]
    have hm : f32Mag a = 0 := by
      by_contra hc
      have p := magUnits_pos hc
      unfold units at h0
      split at h0 <;> omega
    have hn : isNeg a = false := by
      by_contra hc
      exact ha ⟨hm, by simpa using hc⟩
    rw [hn, Bool.false_and, Bool.false_and]
  · simp only [h0, if_false]

theorem notNegZero_rel : PairRel NotNegZero SameButZero where
  zero := ⟨rfl, by decide⟩
  term := by
    rintro a a' x x' ⟨rfl, ha⟩ hx
    refine ⟨?_, add_not_negZero ha⟩
    rcases hx with rfl | ⟨hx, hy⟩
    · rfl
    · exact add_zero_eq ha hx hy
  both := by
    rintro a a' b b' ⟨rfl, ha⟩ ⟨rfl, -⟩
    exact ⟨rfl, add_not_negZero ha⟩

/-- Inner products do not depend on the signs of zeros. -/
theorem dot_zeros {q q' : List F32} (h : List.Forall₂ SameButZero q q') (row : List F32) : unrolledDot row q = unrolledDot row q' := by
  unfold unrolledDot
  refine (notNegZero_rel.unrolledSum ?_).1
  induction h generalizing row with
  | nil => rw [List.zipWith_nil_right]; exact .nil
  | cons hx _ ih =>
    cases row with
    | nil => rw [List.zipWith_nil_left]; exact .nil
    | cons r row => exact .cons (hx.mul r) (ih row)

theorem dot_self_zeros {q q' : List F32} (h : List.Forall₂ SameButZero q q') : unrolledDot q q = unrolledDot q' q' := by
  rw [dot_zeros h q, dot_comm, dot_zeros h q']

theorem SameButZero.div {x y n : F32} (h : SameButZero x y) (hn : f32Mag n ≠ 0) : SameButZero (Ieee.div x n) (Ieee.div y n) := by
  rcases h with rfl | ⟨hx, hy⟩
  · exact .inl rfl
  · have fx := finite_of_mag hx
    have fy := finite_of_mag hy
    unfold Ieee.div
    simp only [fx.notNan, fy.notNan, fx.notInf, fy.notInf, hx, hy, Bool.false_or, magUnits_zero, Nat.zero_mul, beq_iff_eq, hn, if_false,
      Bool.false_eq_true]
    split
    · exact .inl rfl
    · split
      · exact .inr ⟨pack_mag (by decide), pack_mag (by decide)⟩
      · have h0 : roundMag 0 (magUnits (f32Mag n)) = 0 := by
          have h1 := rawMag_magUnits 0 (magUnits (f32Mag n)) (magUnits_pos hn)
          rw [magUnits_zero, Nat.zero_mul] at h1
          rw [roundMag_eq, h1]; decide
        rw [h0]
        exact .inr ⟨pack_mag (by decide), pack_mag (by decide)⟩

theorem normalize_zeros {q q' : List F32} (h : List.Forall₂ SameButZero q q') :
    List.Forall₂ SameButZero (l2Normalize q).1 (l2Normalize q').1 ∧ (l2Normalize q).2 = (l2Normalize q').2 := by
  have hn : (l2Normalize q).2 = (l2Normalize q').2 := by rw [normalize_snd, normalize_snd, dot_self_zeros h]
  refine ⟨?_, hn⟩
  rw [normalize_fst, normalize_fst, hn]
  by_cases h0 : f32Mag (l2Normalize q').2 = 0
  · rw [if_pos h0, if_pos h0]; exact h
  · rw [if_neg h0, if_neg h0]
    generalize (l2Normalize q').2 = n at *
    clear hn
    induction h with
    | nil => rw [List.map_nil]; exact .nil
    | cons hx _ ih => exact .cons (hx.div h0) ih

omit [Storage S F32] in
/-- **C118** (zeros). The answers to a query do not depend on the signs of zeros in the query. -/
theorem c118_zeros (e : Embeddings T V S F32) {q q' : List F32} (h : List.Forall₂ SameButZero q q') (limit : Nat) (skip : List Str)
    (bs : Option Nat) : e.embeddingSimilarityMasked q limit skip bs = e.embeddingSimilarityMasked q' limit skip bs := by
  have h1 := (normalize_zeros h).1
  unfold Embeddings.embeddingSimilarityMasked
  rw [similarity_query_congr e h1.length_eq (fun row => dot_zeros h1 row)]

theorem sub_self_eq {x : F32} (hx : Finite x) : Ieee.sub x x = 0 := by
  have hu : units x + units (neg x) = 0 := by
    unfold neg
    have hl : f32Mag x ≤ infMag := hx.le
    unfold units
    rw [pack_neg hl, pack_mag hl]
    cases isNeg x <;> simp
  have hs : isNeg (neg x) = !isNeg x := pack_neg hx.le
  unfold Ieee.sub
  rw [add_finite_eq hx (neg_finite hx), if_pos hu, hs]
  cases isNeg x <;> decide

theorem zero_add_eq {y : F32} (hy : Finite y) : SameButZero (Ieee.add 0 y) y := by
  have u0 : units 0 = 0 := by decide
  rw [add_finite_eq finite_zero hy, u0, Int.zero_add]
  by_cases h0 : units y = 0
  · rw [if_pos h0]
    right
    refine ⟨pack_mag (by decide), ?_⟩
    by_contra hc
    have p := magUnits_pos hc
    unfold units at h0
    split at h0 <;> omega
  · rw [if_neg h0]
    left
    have hn : (units y).natAbs = magUnits (f32Mag y) := by unfold units; split <;> simp
    have hp : 0 < magUnits (f32Mag y) := by
      by_contra hc
      apply h0
      have h1 : magUnits (f32Mag y) = 0 := by omega
      unfold units; rw [h1]; simp
    have hs : decide (units y < 0) = isNeg y := by
      unfold units
      cases isNeg y
      · simp
      · simp; omega
    have h1 := rawMag_magUnits (f32Mag y) 1 (by norm_num)
    rw [Nat.mul_one] at h1
    rw [hn, hs, roundMag_eq, h1, min_eq_right hy.le]
    exact (eq_pack y).symm

theorem trivial_offset {va vc : List F32} (hl : va.length = vc.length) (hfa : ∀ x ∈ va, Finite x) (hfc : ∀ x ∈ vc, Finite x) :
    List.Forall₂ SameButZero (List.zipWith Ieee.add (List.zipWith Ieee.sub va va) vc) vc := by
  induction vc generalizing va with
  | nil => rw [List.zipWith_nil_right]; exact .nil
  | cons y vc ih =>
    cases va with
    | nil => simp at hl
    | cons x va =>
      refine .cons ?_ (ih (by simpa using hl) (fun z hz => hfa z (List.mem_cons_of_mem _ hz)) fun z hz => hfc z (List.mem_cons_of_mem _ hz))
      rw [sub_self_eq (hfa x (List.mem_cons_self ..))]
      exact zero_add_eq (hfc y (List.mem_cons_self ..))

/-- **C118** (trivial analogies). The answer to "a is to a as c is to" is that to the query for the vector of `c`. -/
theorem c118_trivial (e : Embeddings T V S F32) (a c : Str) (va vc : List F32) (ha : e.embedding a = .ok (some va))
    (hc : e.embedding c = .ok (some vc)) (hl : va.length = vc.length) (hfa : ∀ x ∈ va, Finite x) (hfc : ∀ x ∈ vc, Finite x)
    (r1 r2 r3 : Bool) (limit : Nat) (bs : Option Nat) (skip : List Str)
    (hskip : ∀ w, w ∈ skip ↔ (w = a ∧ (r1 = true ∨ r2 = true)) ∨ (w = c ∧ r3 = true)) (r : List (WordSim F32)) :
    e.analogyMasked a a c r1 r2 r3 limit bs = .ok (.ok r) ↔ e.embeddingSimilarityMasked vc limit skip bs = .ok (some r) := by
  have hz := (normalize_zeros (trivial_offset hl hfa hfc)).1
  have hm : ∀ w, w ∈ ([(a, r1), (a, r2), (c, r3)].filter (·.2)).map (·.1) ↔ w ∈ skip := by
    intro w
    rw [mem_skip, hskip]
    tauto
  unfold Embeddings.analogyMasked Embeddings.lookupWords3 Embeddings.embeddingSimilarityMasked
  simp only [ha, hc, Res.ok_bind, Res.pure_eq]
  rw [similarity_skip_congr e _ hm]
  have hq := similarity_query_congr e hz.length_eq (fun row => dot_zeros hz row) skip limit bs
  have hq' : e.similarity (l2Normalize (List.zipWith Scalar.add (List.zipWith Scalar.sub va va) vc)).1 skip limit bs =
    e.similarity (l2Normalize vc).1 skip limit bs := hq
  rw [hq']
  generalize e.similarity _ _ _ _ = x
  cases x <;> simp

/-! ## Opposite queries -/

/-- `y` is `-x`, unless `x` is not finite. -/
def Opposite (x y : F32) : Prop := Finite x → Finite y ∧ units y = -units x

theorem Opposite.add {x x' y y' : F32} (hx : Opposite x x') (hy : Opposite y y') : Opposite (Ieee.add x y) (Ieee.add x' y') := by
  intro hf
  obtain ⟨fx, fy⟩ := add_finite hf
  obtain ⟨fx', ux⟩ := hx fx
  obtain ⟨fy', uy⟩ := hy fy
  rw [add_finite_eq fx fy] at hf ⊢
  rw [add_finite_eq fx' fy', ux, uy, show -units x + -units y = -(units x + units y) by ring]
  generalize units x + units y = z at *
  by_cases h0 : z = 0
  · subst h0
    rw [if_pos rfl, if_pos (by rfl)]
    have hm : ∀ b, f32Mag (pack b 0) = 0 := fun b => pack_mag (by decide)
    refine ⟨finite_of_mag (hm _), ?_⟩
    unfold units
    rw [hm, hm, magUnits_zero]; simp
  · rw [if_neg h0] at hf ⊢
    rw [if_neg (by omega), Int.natAbs_neg]
    have hl := roundMag_le z.natAbs 1
    have hf' : ∀ b, Finite (pack b (roundMag z.natAbs 1)) := fun b => by
      unfold Finite at hf ⊢
      rw [pack_mag hl] at hf ⊢; exact hf
    refine ⟨hf' _, ?_⟩
    unfold units
    rw [pack_mag hl, pack_mag hl, pack_neg hl, pack_neg hl]
    by_cases hz : z < 0
    · rw [decide_eq_true hz, decide_eq_false (by omega)]; simp
    · rw [decide_eq_false hz, decide_eq_true (by omega)]; simp

theorem opposite_rel : PairRel Opposite Opposite :=
  ⟨fun h => ⟨h, by decide⟩, fun a b => a.add b, fun a b => a.add b⟩

theorem neg_mag {x : F32} (hx : Finite x) : f32Mag (neg x) = f32Mag x := pack_mag hx.le
theorem neg_sign {x : F32} (hx : Finite x) : isNeg (neg x) = !isNeg x := pack_neg hx.le

theorem neg_pack {b : Bool} {m : Nat} (hm : m ≤ infMag) : neg (pack b m) = pack (!b) m := by
  unfold neg; rw [pack_neg hm, pack_mag hm]

theorem mul_neg_eq {x y : F32} (hx : Finite x) (hy : Finite y) : Ieee.mul x (neg y) = neg (Ieee.mul x y) := by
  rw [mul_finite_eq hx (neg_finite hy), mul_finite_eq hx hy, neg_pack (roundMag_le _ _), neg_mag hy, neg_sign hy]
  congr 1
  cases isNeg x <;> cases isNeg y <;> rfl

theorem mul_neg_neg {x : F32} (hx : Finite x) : Ieee.mul (neg x) (neg x) = Ieee.mul x x := by
  rw [mul_finite_eq (neg_finite hx) (neg_finite hx), mul_finite_eq hx hx, neg_mag hx, neg_sign hx]
  congr 1
  cases isNeg x <;> rfl

theorem opposite_neg (x : F32) : Opposite x (neg x) := by
  intro hx
  refine ⟨neg_finite hx, ?_⟩
  unfold units
  rw [neg_mag hx, neg_sign hx]
  cases isNeg x <;> simp

theorem div_neg_eq {x n : F32} (hx : Finite x) (hn : Finite n) (h0 : f32Mag n ≠ 0) : Ieee.div (neg x) n = neg (Ieee.div x n) := by
  rw [div_finite_eq (neg_finite hx) hn h0, div_finite_eq hx hn h0, neg_pack (roundMag_le _ _), neg_mag hx, neg_sign hx]
  congr 1
  cases isNeg x <;> cases isNeg n <;> rfl

theorem dot_self_neg {q : List F32} (hq : ∀ x ∈ q, Finite x) : unrolledDot (q.map neg) (q.map neg) = unrolledDot q q := by
  unfold unrolledDot
  congr 1
  induction q with
  | nil => rw [List.map_nil]
  | cons x q ih =>
    rw [List.map_cons, List.zipWith_cons_cons, List.zipWith_cons_cons, mul_neg_neg (hq x (List.mem_cons_self ..)),
      ih fun y hy => hq y (List.mem_cons_of_mem _ hy)]

theorem normalize_neg {q : List F32} (hf : Finite (l2Normalize q).2) :
    (l2Normalize (q.map neg)).1 = (l2Normalize q).1.map neg ∧ (l2Normalize (q.map neg)).2 = (l2Normalize q).2 := by
  have hq : ∀ x ∈ q, Finite x := by
    rw [normalize_snd] at hf
    exact dot_finite (sqrt_finite hf).1
  have hn : (l2Normalize (q.map neg)).2 = (l2Normalize q).2 := by rw [normalize_snd, normalize_snd, dot_self_neg hq]
  refine ⟨?_, hn⟩
  rw [normalize_fst, normalize_fst q, hn]
  by_cases h0 : f32Mag (l2Normalize q).2 = 0
  · rw [if_pos h0, if_pos h0]
  · rw [if_neg h0, if_neg h0, List.map_map, List.map_map]
    apply List.map_congr_left
    intro x hx
    exact div_neg_eq (hq x hx) hf h0

theorem dot_neg (row q : List F32) (hf : Finite (unrolledDot row q)) :
    Finite (unrolledDot row (q.map neg)) ∧ val (unrolledDot row (q.map neg)) = -val (unrolledDot row q) := by
  have h : List.Forall₂ Opposite (List.zipWith Ieee.mul row q) (List.zipWith Ieee.mul row (q.map neg)) := by
    clear hf
    induction row generalizing q with
    | nil => rw [List.zipWith_nil_left, List.zipWith_nil_left]; exact .nil
    | cons r row ih =>
      cases q with
      | nil => rw [List.map_nil, List.zipWith_nil_right]; exact .nil
      | cons x q =>
        refine .cons (fun hf => ?_) (ih q)
        obtain ⟨f1, f2⟩ := mul_finite hf
        have := opposite_neg (Ieee.mul r x) hf
        rw [← mul_neg_eq f1 f2] at this
        exact this
  have hd : Opposite (unrolledDot row q) (unrolledDot row (q.map neg)) := opposite_rel.unrolledSum h
  obtain ⟨h1, h2⟩ := hd hf
  refine ⟨h1, ?_⟩
  unfold val
  rw [h2]
  push_cast
  ring

/-- **C118** (opposite queries). A word has the opposite similarity to the opposite query. -/
theorem c118_opposite (e : Embeddings T V S F32) (h : RowsOfWords e) (q : List F32) (hf : Finite (l2Normalize q).2)
    (limit limit' : Nat) (h1 : 1 ≤ limit) (h1' : 1 ≤ limit') (skip skip' : List Str) (bs bs' : Option Nat) (r r' : List (WordSim F32))
    (hr : e.embeddingSimilarityMasked q limit skip bs = .ok (some r))
    (hr' : e.embeddingSimilarityMasked (q.map neg) limit' skip' bs' = .ok (some r')) (w : Str) (s s' : F32) (hs : ⟨s, w⟩ ∈ r)
    (hs' : ⟨s', w⟩ ∈ r') (hsf : Finite s) : Finite s' ∧ val s' = -val s := by
  unfold Embeddings.embeddingSimilarityMasked at hr hr'
  obtain ⟨x, hr, hx⟩ := Res.bind_eq_ok.mp hr
  obtain ⟨x', hr', hx'⟩ := Res.bind_eq_ok.mp hr'
  cases hx
  cases hx'
  rw [(normalize_neg hf).1] at hr'
  obtain ⟨m, hm, -, -, -, -, -, ta⟩ := similarity_ok_top h.words h1 hr
  obtain ⟨m', hm', -, -, -, -, -, tb⟩ := similarity_ok_top h.words h1' hr'
  obtain ⟨-, -, x, ex, rfl⟩ := candidate_dot h hm (ta.mem _ hs)
  obtain ⟨-, -, y, ey, rfl⟩ := candidate_dot h hm' (tb.mem _ hs')
  rw [ex] at ey; cases ey
  exact dot_neg _ _ hsf

/-! ## Vocabularies and matrices -/

/-- **C118** (vocabularies without subwords). The condition of the theorems holds for each vocabulary made by the constructor and each
storage whose view has the rows. -/
theorem c118_simple (e : Embeddings T SimpleVocab S F32) (ws : List Str) (hv : SimpleVocab.new ws = .ok e.vocab)
    (h : ViewIsRows e.storage) : RowsOfWords e := by
  obtain ⟨h1, h2, h3⟩ := c22_simple _ _ hv
  exact ⟨⟨by rw [h1, h2], by rw [h1]; exact (SimpleVocab.new_eq_ok.mp hv).1⟩, fun i w hw => (h3 i w).mpr (h1 ▸ hw), h⟩

/-- **C118** (vocabularies with subwords). The same with subwords. -/
theorem c118_subword {I : Type} [Indexer I] (e : Embeddings T (SubwordVocab I) S F32) (ws : List Str) (m M : Nat) (ix : I) (bow eow : Str)
    (hv : SubwordVocab.newWithBoundaries ws m M ix bow eow = .ok e.vocab) (h : ViewIsRows e.storage) : RowsOfWords e := by
  obtain ⟨h1, h2, h3⟩ := c22_subword _ _ _ _ _ _ _ hv
  exact ⟨⟨by rw [h1, h2], by rw [h1]; exact (SubwordVocab.newWithBoundaries_eq_ok.mp hv).1⟩, fun i w hw => (h3 i w).mpr (h1 ▸ hw), h⟩

/-! ## Examples -/

/-- Four words; the vectors of `a`, `c` and `d` are `(1, 0)`, that of `b` is `(2⁻²⁵, 1)`. -/
def exampleWords : Embeddings Str SimpleVocab (NdArray F32) F32 :=
  ⟨none, ⟨⟨2, [[0x3f800000, 0], [0x33000000, 0x3f800000], [0x3f800000, 0], [0x3f800000, 0]]⟩⟩,
    ⟨indexMap [['a'], ['b'], ['c'], ['d']], [['a'], ['b'], ['c'], ['d']]⟩, none⟩

/-- The hypotheses of `c118_simple` can be met. -/
theorem exampleWords_rows : RowsOfWords exampleWords :=
  c118_simple _ [['a'], ['b'], ['c'], ['d']] (SimpleVocab.new_eq_ok.mpr ⟨by decide, rfl⟩) (c57_view_array _ (by unfold Mat.WF; decide))

/-- The hypotheses of `c118_subword` can be met: one word and four buckets. -/
example : ∃ v, SubwordVocab.newWithBoundaries [['a']] 3 3 (⟨2, 3⟩ : HashIndexer) ['<'] ['>'] = .ok v ∧
    RowsOfWords (⟨none, ⟨⟨2, List.replicate 5 [0x3f800000, 0]⟩⟩, v, none⟩ : Embeddings Str BucketSubwordVocab (NdArray F32) F32) := by
  have h : SubwordVocab.newWithBoundaries [['a']] 3 3 (⟨2, 3⟩ : HashIndexer) ['<'] ['>'] = .ok _ :=
    SubwordVocab.newWithBoundaries_eq_ok.mpr ⟨by decide, ⟨4, by decide, by decide⟩, rfl⟩
  exact ⟨_, h, c118_subword _ _ _ _ _ _ _ h (c57_view_array _ (by unfold Mat.WF; decide))⟩

/-- The hypotheses of `c118_symmetric` and `c118_mutual` can be met. -/
example : RowsOfWords exampleWords ∧ ['a'] ∈ Vocab.words exampleWords.vocab ∧
    exampleWords.wordSimilarity ['a'] 4 none =
      .ok (some [⟨0x3f800000, ['c']⟩, ⟨0x3f800000, ['d']⟩, ⟨0x33000000, ['b']⟩]) ∧
    exampleWords.wordSimilarity ['b'] 5 (some 3) =
      .ok (some [⟨0x33000000, ['a']⟩, ⟨0x33000000, ['c']⟩, ⟨0x33000000, ['d']⟩]) ∧
    (Vocab.words exampleWords.vocab).length ≤ 4 ∧ (Vocab.words exampleWords.vocab).length ≤ 5 :=
  ⟨exampleWords_rows, by decide, by decide +kernel, by decide +kernel, by decide, by decide⟩

/-- The hypothesis of `c118_zeros` can be met by different queries. -/
example : List.Forall₂ SameButZero [0x80000000, 0x3f800000] [0, 0x3f800000] ∧ ([0x80000000, 0x3f800000] : List F32) ≠ [0, 0x3f800000] :=
  ⟨.cons (.inr ⟨by decide, by decide⟩) (.cons (.inl rfl) .nil), by decide⟩

/-- The hypotheses of `c118_trivial` can be met, and the answers have words. -/
example : exampleWords.embedding ['a'] = .ok (some [0x3f800000, 0]) ∧
    exampleWords.embedding ['b'] = .ok (some [0x33000000, 0x3f800000]) ∧
    (∀ x ∈ ([0x3f800000, 0] : List F32), Finite x) ∧ (∀ x ∈ ([0x33000000, 0x3f800000] : List F32), Finite x) ∧
    (∀ w : Str, w ∈ [['a'], ['b']] ↔ (w = ['a'] ∧ (true = true ∨ true = true)) ∨ (w = ['b'] ∧ true = true)) ∧
    exampleWords.analogyMasked ['a'] ['a'] ['b'] true true true 4 none = .ok (.ok [⟨0x33000000, ['c']⟩, ⟨0x33000000, ['d']⟩]) ∧
    exampleWords.embeddingSimilarityMasked [0x33000000, 0x3f800000] 4 [['a'], ['b']] none =
      .ok (some [⟨0x33000000, ['c']⟩, ⟨0x33000000, ['d']⟩]) := by
  refine ⟨by decide +kernel, by decide +kernel, by unfold Finite; decide, by unfold Finite; decide, by simp, by decide +kernel,
    by decide +kernel⟩

/-- The hypotheses of `c118_opposite` can be met. -/
example : Finite (l2Normalize ([0x33000000, 0x3f800000] : List F32)).2 ∧
    exampleWords.embeddingSimilarityMasked [0x33000000, 0x3f800000] 4 [['a'], ['b']] none =
      .ok (some [⟨0x33000000, ['c']⟩, ⟨0x33000000, ['d']⟩]) ∧
    exampleWords.embeddingSimilarityMasked (([0x33000000, 0x3f800000] : List F32).map neg) 4 [['a'], ['b']] none =
      .ok (some [⟨0xb3000000, ['c']⟩, ⟨0xb3000000, ['d']⟩]) ∧ Finite 0x33000000 := by
  refine ⟨by unfold Finite; decide +kernel, by decide +kernel, by decide +kernel, by unfold Finite; decide⟩

/-- With rounding the second and the third word of an analogy cannot be exchanged: one of the answers is `0`, the other one `2⁻²⁵`. -/
theorem c118_exchange_rounded :
    exampleWords.analogyMasked ['a'] ['b'] ['c'] true true true 4 none = .ok (.ok [⟨0, ['d']⟩]) ∧
    exampleWords.analogyMasked ['a'] ['c'] ['b'] true true true 4 none = .ok (.ok [⟨0x33000000, ['d']⟩]) :=
  ⟨by decide +kernel, by decide +kernel⟩

end Ieee

/-! ## Exchanging words of an analogy -/

/-- **C118** (exchange). Without rounding, "a is to b as c is to" and "a is to c as b is to" have the same answers. -/
theorem c118_exchange {T V S : Type} [Vocab V] [Storage S ℝ] [StorageView S ℝ] [ScalarOrd ℝ] (e : Embeddings T V S ℝ) (a b c : Str)
    (va vb vc : List ℝ) (ha : e.embedding a = .ok (some va)) (hb : e.embedding b = .ok (some vb))
    (hc : e.embedding c = .ok (some vc)) (r1 r2 r3 : Bool) (limit : Nat)
    (bs : Option Nat) : e.analogyMasked a b c r1 r2 r3 limit bs = e.analogyMasked a c b r1 r3 r2 limit bs := by
  have hv : List.zipWith Scalar.add (List.zipWith Scalar.sub vb va) vc = List.zipWith Scalar.add (List.zipWith Scalar.sub vc va) vb := by
    clear ha hb hc
    induction va generalizing vb vc with
    | nil => simp
    | cons x va ih =>
      cases vb <;> cases vc <;> simp only [List.zipWith_nil_left, List.zipWith_nil_right, List.zipWith_cons_cons]
      rw [ih]
      congr 1
      show _ - _ + _ = _ - _ + _
      ring
  unfold Embeddings.analogyMasked Embeddings.lookupWords3
  simp only [ha, hb, hc, Res.ok_bind, Res.pure_eq, hv]
  rw [similarity_skip_congr e _ (skip' := ([(a, r1), (c, r3), (b, r2)].filter (·.2)).map (·.1))]
  intro w
  rw [mem_skip, mem_skip]
  tauto

/-- The hypotheses of `c118_exchange` can be met: three words with different vectors. -/
example : ∃ e : Embeddings Str SimpleVocab (NdArray ℝ) ℝ, e.embedding ['a'] = .ok (some [1, 0]) ∧ e.embedding ['b'] = .ok (some [0, 1]) ∧
    e.embedding ['c'] = .ok (some [1, 1]) :=
  ⟨⟨none, ⟨⟨2, [[1, 0], [0, 1], [1, 1]]⟩⟩, ⟨indexMap [['a'], ['b'], ['c']], [['a'], ['b'], ['c']]⟩, none⟩, rfl, rfl, rfl⟩

end FF
