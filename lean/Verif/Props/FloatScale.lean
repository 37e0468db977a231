import Verif.Lemmas.FloatScale
import Verif.Props.FloatQuery
import Verif.Props.Others
import Verif.Model.Measures

/-!
# The scale of vectors does not matter (C117)

Multiplying a vector by a power of two leaves the normalised vector as it is, bit by bit, if its components are not so small that
their squares are subnormal. Everything that the crate normalises therefore does not depend on such factors.
-/

namespace FF
namespace Ieee

attribute [local instance] scalar

/-- Specification: no component has a square that is subnormal. -/
def Squarable (v : List F32) : Prop := ∀ x ∈ v, val x = 0 ∨ 1 / 2 ^ 63 ≤ |val x|

/-! ## Sums of numbers that are not negative -/

/-- A sum of numbers that are not negative is only zero if they all are. `n` stands for the units added so far. -/
def Positive (n : Nat) (x : F32) : Prop := Finite x → isNeg x = false ∧ (f32Mag x = 0 → n = 0)

theorem Positive.add {n m : Nat} {x y : F32} (hx : Positive n x) (hy : Positive m y) : Positive (n + m) (Ieee.add x y) := by
  intro hf
  obtain ⟨fx, fy⟩ := add_finite hf
  obtain ⟨sx, zx⟩ := hx fx
  obtain ⟨sy, zy⟩ := hy fy
  rw [add_finite_eq fx fy] at hf ⊢
  have ux : units x = magUnits (f32Mag x) := by unfold units; rw [sx]; rfl
  have uy : units y = magUnits (f32Mag y) := by unfold units; rw [sy]; rfl
  rw [ux, uy, sx, sy] at hf ⊢
  have p0 : ∀ b, magUnits b = 0 → b = 0 := fun b hb => by
    by_contra hc
    have := magUnits_pos hc; omega
  have hb := p0 (f32Mag x)
  have hc := p0 (f32Mag y)
  generalize magUnits (f32Mag x) = a at *
  generalize magUnits (f32Mag y) = b at *
  by_cases h0 : ((a : Int) + b = 0)
  · rw [if_pos h0]
    refine ⟨pack_neg (by decide), fun _ => ?_⟩
    have := zx (hb (by omega)); have := zy (hc (by omega)); omega
  · rw [if_neg h0] at hf ⊢
    have hs : decide ((a : Int) + b < 0) = false := by simp; omega
    rw [hs] at hf ⊢
    refine ⟨pack_neg (roundMag_le _ _), fun h => ?_⟩
    rw [pack_mag (roundMag_le _ _)] at h
    have h1 : rawMag 1 1 ≤ rawMag ((a : Int) + b).natAbs 1 := rawMag_mono (by norm_num) (by norm_num) (by omega)
    have h2 : rawMag 1 1 = 1 := by decide
    have h3 : 0 < infMag := by decide
    rw [roundMag_eq] at h
    omega

theorem positive_zero : Positive 0 0 := fun _ => ⟨rfl, fun _ => rfl⟩

theorem positive_foldl {ns : List Nat} {xs : List F32} (h : List.Forall₂ Positive ns xs) {n : Nat} {a : F32} (ha : Positive n a) :
    Positive (n + ns.sum) (xs.foldl Ieee.add a) := by
  induction h generalizing n a with
  | nil => exact ha
  | cons hx _ ih => rw [List.sum_cons, ← Nat.add_assoc]; exact ih (ha.add hx)

theorem positive_unrolledSumF (fuel : Nat) {ms ns : List Nat} {ps xs : List F32} (hp : List.Forall₂ Positive ms ps)
    (hx : List.Forall₂ Positive ns xs) (h8 : ps.length = 8) : Positive (ms.sum + ns.sum) (unrolledSumF fuel ps xs) := by
  have base : ∀ (fuel : Nat) {ms ns : List Nat} {ps xs : List F32}, List.Forall₂ Positive ms ps → List.Forall₂ Positive ns xs →
      ps.length = 8 → (fuel = 0 ∨ xs.length < 8) → Positive (ms.sum + ns.sum) (unrolledSumF fuel ps xs) := by
    intro fuel ms ns ps xs hp hx h8 hl
    match ps, ms, h8, hp with
    | [p0, p1, p2, p3, p4, p5, p6, p7], _, _, .cons q0 (.cons q1 (.cons q2 (.cons q3 (.cons q4 (.cons q5 (.cons q6 (.cons q7 .nil))))))) =>
      rw [unrolledSumF_short _ _ _ _ _ _ _ _ _ _ hl]
      have := positive_foldl hx (((((positive_zero).add (q0.add q4)).add (q1.add q5)).add (q2.add q6)).add (q3.add q7))
      convert this using 1
      simp only [List.sum_cons, List.sum_nil]
      omega
  induction fuel generalizing ms ns ps xs with
  | zero => exact base 0 hp hx h8 (.inl rfl)
  | succ fuel ih =>
    by_cases hl : xs.length < 8
    · exact base _ hp hx h8 (.inr hl)
    · match xs, ns, hl, hx with
      | x0 :: x1 :: x2 :: x3 :: x4 :: x5 :: x6 :: x7 :: xs, _, _,
        .cons a0 (.cons a1 (.cons a2 (.cons a3 (.cons a4 (.cons a5 (.cons a6 (.cons a7 hx))))))) =>
        match ps, ms, h8, hp with
        | [p0, p1, p2, p3, p4, p5, p6, p7], _, _,
          .cons q0 (.cons q1 (.cons q2 (.cons q3 (.cons q4 (.cons q5 (.cons q6 (.cons q7 .nil))))))) =>
          rw [unrolledSumF]
          have := ih (List.Forall₂.cons (q0.add a0) (.cons (q1.add a1) (.cons (q2.add a2) (.cons (q3.add a3) (.cons (q4.add a4)
            (.cons (q5.add a5) (.cons (q6.add a6) (.cons (q7.add a7) .nil)))))))) hx rfl
          have e : ∀ N x, Positive N x → ∀ M, N = M → Positive M x := fun _ _ h _ e => e ▸ h
          refine e _ _ this _ ?_
          simp only [List.sum_cons, List.sum_nil]
          omega
      | [], _, h, _ => simp at h
      | [_], _, h, _ => simp at h
      | [_, _], _, h, _ => simp at h
      | [_, _, _], _, h, _ => simp at h
      | [_, _, _, _], _, h, _ => simp at h
      | [_, _, _, _, _], _, h, _ => simp at h
      | [_, _, _, _, _, _], _, h, _ => simp at h
      | [_, _, _, _, _, _, _], _, h, _ => simp at h

theorem positive_square {x : F32} (h : val x = 0 ∨ 1 / 2 ^ 63 ≤ |val x|) : Positive (magUnits (f32Mag x)) (mul x x) := by
  intro hf
  have fx := (mul_finite hf).1
  rw [mul_finite_eq fx fx] at hf ⊢
  have hs : (isNeg x != isNeg x) = false := by simp
  rw [hs] at hf ⊢
  refine ⟨pack_neg (roundMag_le _ _), fun h0 => ?_⟩
  rw [pack_mag (roundMag_le _ _)] at h0
  rcases h with h | h
  · rw [val_eq_zero.mp h]; rfl
  · exfalso
    rw [abs_val, le_div_iff₀ (by positivity)] at h
    have h1 : 2 ^ 86 ≤ magUnits (f32Mag x) := by
      have : ((2 ^ 86 : Nat) : ℝ) ≤ (magUnits (f32Mag x) : ℝ) := by
        refine le_trans (le_of_eq ?_) h
        rw [Nat.cast_pow, Nat.cast_ofNat, div_mul_eq_mul_div, one_mul, eq_div_iff (by positivity), ← pow_add]
      exact_mod_cast this
    have h2 : 2 ^ 23 * 2 ^ 149 ≤ magUnits (f32Mag x) * magUnits (f32Mag x) := by
      have := Nat.mul_le_mul h1 h1
      rw [← pow_add] at this ⊢
      exact this
    have h3 := le_rawMag (pow_pos' 149) h2
    have h4 : 0 < infMag := by decide
    have h5 := pow_pos' 23
    rw [roundMag_eq] at h0
    omega

/-- A vector whose computed length is zero is the zero vector. -/
theorem zero_of_dot {v : List F32} (hv : Squarable v) (hf : Finite (unrolledDot v v)) (h0 : f32Mag (unrolledDot v v) = 0) :
    ∀ x ∈ v, f32Mag x = 0 := by
  have h : ∀ u : List F32, Squarable u → List.Forall₂ Positive (u.map fun x => magUnits (f32Mag x)) (List.zipWith mul u u) := by
    intro u hu
    induction u with
    | nil => exact .nil
    | cons x u ih =>
      exact .cons (positive_square (hu x (List.mem_cons_self ..))) (ih fun y hy => hu y (List.mem_cons_of_mem _ hy))
  have hz : List.Forall₂ Positive (List.replicate 8 0) (List.replicate 8 (0 : F32)) := by
    simp only [List.replicate]
    have := positive_zero
    exact .cons this (.cons this (.cons this (.cons this (.cons this (.cons this (.cons this (.cons this .nil)))))))
  have := (positive_unrolledSumF _ hz (h v hv) (by simp) hf).2 h0
  intro x hx
  by_contra hc
  have h1 := magUnits_pos hc
  have h2 : magUnits (f32Mag x) ∈ v.map fun x => magUnits (f32Mag x) := List.mem_map_of_mem hx
  have h3 := List.le_sum_of_mem h2
  omega

/-! ## Normalisation -/

theorem dot_finite {v : List F32} (hf : Finite (unrolledDot v v)) : ∀ x ∈ v, Finite x := by
  intro x hx
  have h := (unrolledSumF_finite _ (by simp) hf).2 (mul x x) (by
    obtain ⟨i, hi, rfl⟩ := List.mem_iff_getElem.mp hx
    have : (List.zipWith mul v v)[i]'(by simpa using hi) = mul v[i] v[i] := List.getElem_zipWith
    rw [← this]
    exact List.getElem_mem _)
  exact (mul_finite h).1

theorem sqrt_zero {x : F32} (hf : Finite (sqrt x)) (h0 : f32Mag (sqrt x) = 0) : f32Mag x = 0 := by
  by_contra hc
  obtain ⟨hx, hs⟩ := sqrt_finite hf
  rw [sqrt_finite_eq hx hc (hs.resolve_left hc), pack_mag (roundMag_le _ _)] at h0
  exact absurd h0 (sqrt_mag_pos (Nat.le_mul_of_pos_left _ (magUnits_pos hc)))

theorem square_normal {a : ℝ} (h0 : 1 / 2 ^ 63 ≤ |a|) : 1 / 2 ^ 126 ≤ |a * a| := by
  rw [abs_mul]
  have := mul_le_mul h0 h0 (by positivity) (abs_nonneg _)
  refine le_trans (le_of_eq ?_) this
  rw [div_mul_div_comm, ← pow_add, one_mul]

theorem normalize_snd (u : List F32) : (l2Normalize u).2 = sqrt (unrolledDot u u) := rfl

theorem normalize_fst (u : List F32) :
    (l2Normalize u).1 = if f32Mag (l2Normalize u).2 = 0 then u else u.map (div · (l2Normalize u).2) := by
  show (if (f32Mag (l2Normalize u).2 == 0) = true then u else u.map (div · (l2Normalize u).2)) = _
  by_cases h : f32Mag (l2Normalize u).2 = 0
  · rw [if_pos h, if_pos (by rw [h]; rfl)]
  · rw [if_neg h, if_neg (by simpa using h)]

theorem forall₂_scaled {k : Nat} {v v' : List F32} (h : List.Forall₂ (ScaledIf k) v v') (fv' : ∀ x ∈ v', Finite x) :
    List.Forall₂ (Scaled k) v v' := by
  induction h with
  | nil => exact .nil
  | cons hx _ ih =>
    exact .cons (hx (fv' _ (List.mem_cons_self ..))) (ih fun y hy => fv' y (List.mem_cons_of_mem _ hy))

theorem forall₂_square {k : Nat} {v v' : List F32} (h : List.Forall₂ (Scaled k) v v') (hv : Squarable v) :
    List.Forall₂ (ScaledIf (2 * k)) (List.zipWith mul v v) (List.zipWith mul v' v') := by
  induction h with
  | nil => exact .nil
  | @cons x x' _ _ hx _ ih =>
    refine .cons (fun hf => ?_) (ih fun y hy => hv y (List.mem_cons_of_mem _ hy))
    rw [Nat.two_mul]
    refine hx.mul hx ?_ hf
    rcases hv x (List.mem_cons_self ..) with h0 | h0
    · left; rw [h0, zero_mul]
    · exact .inr (square_normal h0)

theorem forall₂_zero {k : Nat} {v v' : List F32} (h : List.Forall₂ (Scaled k) v v') (hall : ∀ x ∈ v, f32Mag x = 0) : v' = v := by
  induction h with
  | nil => rfl
  | cons hx _ ih =>
    rw [hx.eq_of_zero (hall _ (List.mem_cons_self ..)), ih fun y hy => hall y (List.mem_cons_of_mem _ hy)]

theorem forall₂_div {k : Nat} {v v' : List F32} (h : List.Forall₂ (Scaled k) v v') {a b : F32} (hn : Scaled k a b)
    (h0 : f32Mag a ≠ 0) : v'.map (div · b) = v.map (div · a) := by
  induction h with
  | nil => rw [List.map_nil, List.map_nil]
  | cons hx _ ih => exact congrArg₂ List.cons (hx.div_eq hn h0) ih

theorem scaled_dot {k : Nat} {v v' : List F32} (h : List.Forall₂ (Scaled k) v v') (hv : Squarable v)
    (hf : Finite (unrolledDot v' v')) : Scaled (2 * k) (unrolledDot v v) (unrolledDot v' v') := by
  unfold unrolledDot at hf ⊢
  exact scaledIf_unrolledSum (forall₂_square h hv) hf

theorem normalize_scaledIf {k : Nat} {v v' : List F32} (h : List.Forall₂ (ScaledIf k) v v') (hv : Squarable v)
    (hf : Finite (l2Normalize v').2) :
    (l2Normalize v').1 = (l2Normalize v).1 ∧ Scaled k (l2Normalize v).2 (l2Normalize v').2 := by
  have e' := normalize_fst v'
  have e := normalize_fst v
  have hN := normalize_snd v
  have hN' := normalize_snd v'
  generalize (l2Normalize v').1 = r' at *
  generalize (l2Normalize v).1 = r at *
  generalize (l2Normalize v').2 = n' at *
  generalize (l2Normalize v).2 = n at *
  subst hN hN'
  have hd' := (sqrt_finite hf).1
  have hs := forall₂_scaled h (dot_finite hd')
  have hd := scaled_dot hs hv hd'
  have hn := hd.sqrt hf
  refine ⟨?_, hn⟩
  rw [e, e']
  by_cases h0 : f32Mag (sqrt (unrolledDot v v)) = 0
  · rw [if_pos h0, if_pos (hn.zero_iff.mpr h0)]
    exact forall₂_zero hs (zero_of_dot hv hd.fx (sqrt_zero hn.fx h0))
  · rw [if_neg h0, if_neg fun x => h0 (hn.zero_iff.mp x)]
    exact forall₂_div hs hn h0

/-- Specification: `v'` is `v` times `2^k`, component by component, without rounding. -/
def ScaledVec (k : Nat) (v v' : List F32) : Prop := List.Forall₂ (Scaled k) v v'

theorem ScaledVec.weaken {k : Nat} {v v' : List F32} (h : ScaledVec k v v') : List.Forall₂ (ScaledIf k) v v' :=
  List.Forall₂.imp (S := ScaledIf k) (fun _ _ hx _ => hx) h

/-- **C117.** A vector and the vector times a power of two are normalised to the same bits, and their lengths differ by that power
of two exactly, if no square of a component is subnormal and the length of the larger vector does not overflow. -/
theorem c117_normalize {k : Nat} {v v' : List F32} (h : ScaledVec k v v') (hv : Squarable v) (hf : Finite (l2Normalize v').2) :
    (l2Normalize v').1 = (l2Normalize v).1 ∧ Scaled k (l2Normalize v).2 (l2Normalize v').2 :=
  normalize_scaledIf h.weaken hv hf

/-- **C117** (queries). The answers to a similarity query do not depend on the scale of the query. -/
theorem c117_query {T V S : Type} [Vocab V] [Storage S F32] [StorageView S F32] [ScalarOrd F32] (e : Embeddings T V S F32) {k : Nat}
    {q q' : List F32} (h : ScaledVec k q q') (hq : Squarable q) (hf : Finite (l2Normalize q').2) (limit : Nat) (skip : List Str)
    (bs : Option Nat) :
    e.embeddingSimilarityMasked q' limit skip bs = e.embeddingSimilarityMasked q limit skip bs ∧
    e.embeddingSimilarity q' limit bs = e.embeddingSimilarity q limit bs := by
  have hn := (c117_normalize h hq hf).1
  constructor
  · unfold Embeddings.embeddingSimilarityMasked; rw [hn]
  · unfold Embeddings.embeddingSimilarity Embeddings.embeddingSimilarityMasked; rw [hn]

/-! ## Readers -/

/-- Specification: the vectors of `rows'` are those of `rows`, each times a power of two of its own. -/
structure RowsScaled (ks : List Nat) (rows rows' : List (List F32)) : Prop where
  len : rows.length = ks.length
  len' : rows'.length = ks.length
  each : ∀ (i k : Nat) (r r' : List F32), ks[i]? = some k → rows[i]? = some r → rows'[i]? = some r' → ScaledVec k r r'

theorem normalizeArray_scaled {ks : List Nat} {m m' : Mat F32} (hc : m.cols = m'.cols) (h : RowsScaled ks m.rows m'.rows)
    (hs : ∀ r ∈ m.rows, Squarable r) (hf : ∀ n ∈ (l2NormalizeArray m').2, Finite n) :
    (l2NormalizeArray m').1 = (l2NormalizeArray m).1 ∧
    ∀ (i k : Nat) (n n' : F32), ks[i]? = some k → (l2NormalizeArray m).2[i]? = some n → (l2NormalizeArray m').2[i]? = some n' →
      Scaled k n n' := by
  have key : ∀ (i : Nat) (r r' : List F32), m.rows[i]? = some r → m'.rows[i]? = some r' →
      ∃ k, ks[i]? = some k ∧ (l2Normalize r').1 = (l2Normalize r).1 ∧ Scaled k (l2Normalize r).2 (l2Normalize r').2 := by
    intro i r r' hr hr'
    have hi : i < ks.length := by rw [← h.len]; exact (List.getElem?_eq_some_iff.mp hr).1
    refine ⟨ks[i], List.getElem?_eq_getElem hi, ?_⟩
    refine c117_normalize (h.each i _ r r' (List.getElem?_eq_getElem hi) hr hr') (hs r (List.mem_of_getElem? hr)) (hf _ ?_)
    exact List.mem_map_of_mem (List.mem_of_getElem? hr')
  constructor
  · unfold l2NormalizeArray
    have : (m'.rows.map fun r => (l2Normalize r).1) = m.rows.map fun r => (l2Normalize r).1 := by
      apply List.ext_getElem?
      intro i
      rw [List.getElem?_map, List.getElem?_map]
      by_cases hi : i < ks.length
      · have h1 : i < m.rows.length := by rw [h.len]; exact hi
        have h2 : i < m'.rows.length := by rw [h.len']; exact hi
        obtain ⟨_, _, hk, _⟩ := key i _ _ (List.getElem?_eq_getElem h1) (List.getElem?_eq_getElem h2)
        rw [List.getElem?_eq_getElem h1, List.getElem?_eq_getElem h2, Option.map_some, Option.map_some, hk]
      · rw [List.getElem?_eq_none (by rw [h.len']; omega), List.getElem?_eq_none (by rw [h.len]; omega)]
    simp only [this, hc]
  · intro i k n n' hk hn hn'
    unfold l2NormalizeArray at hn hn'
    simp only [List.getElem?_map, Option.map_eq_some_iff] at hn hn'
    obtain ⟨r, hr, rfl⟩ := hn
    obtain ⟨r', hr', rfl⟩ := hn'
    obtain ⟨k', hk', _, h2⟩ := key i r r' hr hr'
    rw [hk] at hk'
    cases hk'
    exact h2

/-- Specification: what two normalising readers return for files whose vectors differ by powers of two. -/
def SameNormalized {T : Type} (ks : List Nat) (e e' : Embeddings T SimpleVocab (NdArray F32) F32) : Prop :=
  e'.vocab = e.vocab ∧ e'.storage = e.storage ∧ ∃ norms norms', e.norms = some ⟨norms⟩ ∧ e'.norms = some ⟨norms'⟩ ∧
    norms.length = ks.length ∧ norms'.length = ks.length ∧
    ∀ (i k : Nat) (n n' : F32), ks[i]? = some k → norms[i]? = some n → norms'[i]? = some n' → Scaled k n n'

/-- Specification: two files read without normalisation have the same words and vectors that differ by powers of two; the vectors of
the first have no subnormal squares. -/
structure FilesScaled {T : Type} (ks : List Nat) (e e' : Embeddings T SimpleVocab (NdArray F32) F32) : Prop where
  vocab : e'.vocab = e.vocab
  cols : e.storage.inner.cols = e'.storage.inner.cols
  rows : RowsScaled ks e.storage.inner.rows e'.storage.inner.rows
  squarable : ∀ r ∈ e.storage.inner.rows, Squarable r

/-- Specification: no norm has overflown. -/
def FiniteNorms {T V S : Type} (e : Embeddings T V S F32) : Prop := ∀ ns, e.norms = some ns → ∀ n ∈ ns.inner, Finite n

theorem normalizeRead_scaled {T : Type} {ks : List Nat} {r r' e e' : Embeddings T SimpleVocab (NdArray F32) F32}
    (h : FilesScaled ks r r') (h1 : Embeddings.normalizeRead r = .ok e) (h2 : Embeddings.normalizeRead r' = .ok e')
    (hf : FiniteNorms e') : SameNormalized ks e e' := by
  unfold Embeddings.normalizeRead Embeddings.new at h1 h2
  simp only at h1 h2
  obtain ⟨_, _, h1⟩ := Res.bind_eq_ok.mp h1
  obtain ⟨_, _, h2⟩ := Res.bind_eq_ok.mp h2
  obtain ⟨-, rfl⟩ := Embeddings.newWithMaybeNorms_eq_ok.mp h1
  obtain ⟨-, rfl⟩ := Embeddings.newWithMaybeNorms_eq_ok.mp h2
  obtain ⟨k1, k2⟩ := normalizeArray_scaled h.cols h.rows h.squarable (hf _ rfl)
  refine ⟨h.vocab, congrArg NdArray.mk k1, _, _, rfl, rfl, ?_, ?_, k2⟩
  · rw [← h.rows.len]; simp [l2NormalizeArray]
  · rw [← h.rows.len']; simp [l2NormalizeArray]

/-- **C117** (readers). Two word2vec or text files with the same words, whose vectors differ by powers of two, give the same
vocabulary and the same storage when they are read with normalisation; the norms differ by the powers of two. -/
theorem c117_readers {T : Type} [FloatText F32] (lossy : Bool) (d d' : Bytes) (pos pos' : Nat) (ks : List Nat)
    (e e' : Embeddings T SimpleVocab (NdArray F32) F32) (hf : FiniteNorms e') :
    (∀ (p p' : Nat) (r r' : Embeddings T SimpleVocab (NdArray F32) F32),
      Embeddings.readWord2vecRaw lossy d pos = .ok (r, p) → Embeddings.readWord2vecRaw lossy d' pos' = .ok (r', p') →
      FilesScaled ks r r' →
      Embeddings.readWord2vec lossy d pos = .ok (e, p) → Embeddings.readWord2vec lossy d' pos' = .ok (e', p') →
      SameNormalized ks e e') ∧
    (∀ r r' : Embeddings T SimpleVocab (NdArray F32) F32,
      Embeddings.readTextRaw lossy d pos = .ok r → Embeddings.readTextRaw lossy d' pos' = .ok r' → FilesScaled ks r r' →
      Embeddings.readText lossy d pos = .ok e → Embeddings.readText lossy d' pos' = .ok e' → SameNormalized ks e e') ∧
    (∀ r r' : Embeddings T SimpleVocab (NdArray F32) F32,
      Embeddings.readTextDimsRaw lossy d pos = .ok r → Embeddings.readTextDimsRaw lossy d' pos' = .ok r' → FilesScaled ks r r' →
      Embeddings.readTextDims lossy d pos = .ok e → Embeddings.readTextDims lossy d' pos' = .ok e' → SameNormalized ks e e') := by
  refine ⟨fun p p' r r' a b h c c' => ?_, fun r r' a b h c c' => ?_, fun r r' a b h c c' => ?_⟩
  · unfold Embeddings.readWord2vec at c c'
    obtain ⟨e0, p1, h1, c⟩ := Rd.bind_ok.mp c
    obtain ⟨h2, rfl⟩ := Rd.lift_ok.mp c
    obtain ⟨e0', p1', h1', c'⟩ := Rd.bind_ok.mp c'
    obtain ⟨h2', rfl⟩ := Rd.lift_ok.mp c'
    rw [a] at h1; cases h1
    rw [b] at h1'; cases h1'
    exact normalizeRead_scaled h h2 h2' hf
  · obtain ⟨e0, h1, h2⟩ := Res.bind_eq_ok.mp c
    obtain ⟨e0', h1', h2'⟩ := Res.bind_eq_ok.mp c'
    rw [a] at h1; cases h1
    rw [b] at h1'; cases h1'
    exact normalizeRead_scaled h h2 h2' hf
  · obtain ⟨e0, h1, h2⟩ := Res.bind_eq_ok.mp c
    obtain ⟨e0', h1', h2'⟩ := Res.bind_eq_ok.mp c'
    rw [a] at h1; cases h1
    rw [b] at h1'; cases h1'
    exact normalizeRead_scaled h h2 h2' hf

/-! ## Unknown words -/

theorem scaledIf_zipWith {k : Nat} {a a' b b' : List F32} (ha : List.Forall₂ (ScaledIf k) a a') (hb : List.Forall₂ (ScaledIf k) b b') :
    List.Forall₂ (ScaledIf k) (List.zipWith add a b) (List.zipWith add a' b') := by
  induction ha generalizing b b' with
  | nil => rw [List.zipWith_nil_left, List.zipWith_nil_left]; exact .nil
  | cons hx _ ih =>
    cases hb with
    | nil => rw [List.zipWith_nil_right, List.zipWith_nil_right]; exact .nil
    | cons hy hb => exact .cons (hx.add hy) (ih hb)

theorem scaledIf_rows {k : Nat} {rows rows' : List (List F32)} (h : List.Forall₂ (ScaledVec k) rows rows') {a a' : List F32}
    (ha : List.Forall₂ (ScaledIf k) a a') :
    List.Forall₂ (ScaledIf k) (rows.foldl (List.zipWith add) a) (rows'.foldl (List.zipWith add) a') := by
  induction h generalizing a a' with
  | nil => exact ha
  | cons hx _ ih => exact ih (scaledIf_zipWith ha hx.weaken)

theorem scaledIf_flatten {k : Nat} {rows rows' : List (List F32)} (h : List.Forall₂ (ScaledVec k) rows rows') :
    List.Forall₂ (ScaledIf k) rows.flatten rows'.flatten := by
  induction h with
  | nil => exact .nil
  | cons hx _ ih =>
    rw [List.flatten_cons, List.flatten_cons]
    exact List.rel_append hx.weaken ih

theorem sumAxis0_scaledIf {k : Nat} {m m' : Mat F32} (hc : m.cols = m'.cols) (h : List.Forall₂ (ScaledVec k) m.rows m'.rows) :
    List.Forall₂ (ScaledIf k) m.sumAxis0 m'.sumAxis0 := by
  unfold Mat.sumAxis0
  rw [← hc]
  split
  · exact .cons (scaledIf_unrolledSum (scaledIf_flatten h)) .nil
  · refine scaledIf_rows h ?_
    generalize m.cols = n
    induction n with
    | zero => exact .nil
    | succ n ih => exact .cons (scaledIf_zero k) ih

theorem forall₂_of_rows {k : Nat} {S S' : Type} [Storage S F32] [Storage S' F32] {s : S} {s' : S'} (is : List Nat)
    {rows rows' : List (List F32)}
    (hr : ∀ i ∈ is, ∀ r r', embedding s i = .ok r → embedding s' i = .ok r' → ScaledVec k r r')
    (h1 : is.map (embedding s) = rows.map Res.ok) (h2 : is.map (embedding s') = rows'.map Res.ok) :
    List.Forall₂ (ScaledVec k) rows rows' := by
  induction is generalizing rows rows' with
  | nil =>
    cases rows <;> cases rows' <;> simp at h1 h2
    exact .nil
  | cons i is ih =>
    cases rows with
    | nil => simp at h1
    | cons r rows =>
      cases rows' with
      | nil => simp at h2
      | cons r' rows' =>
        simp only [List.map_cons, List.cons.injEq] at h1 h2
        exact .cons (hr i (List.mem_cons_self ..) r r' h1.1 h2.1)
          (ih (fun j hj => hr j (List.mem_cons_of_mem _ hj)) h1.2 h2.2)

/-- **C117** (unknown words). If the vectors of the n-grams of an unknown word are multiplied by a power of two, the vector of the
word stays the same and its norm is multiplied by the power of two. -/
theorem c117_oov {T T' V V' S S' : Type} [Vocab V] [Vocab V'] [Storage S F32] [Storage S' F32] (e : Embeddings T V S F32)
    (e' : Embeddings T' V' S' F32) (hb : BatchIsRows e.storage) (hb' : BatchIsRows e'.storage)
    (hc : (shape e.storage).2 = (shape e'.storage).2) (w : Str) (is : List Nat) (k : Nat)
    (hi : Vocab.idx e.vocab w = .ok (some (.subword is))) (hi' : Vocab.idx e'.vocab w = .ok (some (.subword is)))
    (hr : ∀ i ∈ is, ∀ r r', embedding e.storage i = .ok r → embedding e'.storage i = .ok r' → ScaledVec k r r')
    (hs : ∀ m : Mat F32, embeddings e.storage is = .ok m → Squarable m.sumAxis0)
    (v v' : List F32) (n n' : F32) (h : e.embeddingWithNorm w = .ok (some (v, n)))
    (h' : e'.embeddingWithNorm w = .ok (some (v', n'))) (hf : Finite n') :
    v' = v ∧ Scaled k n n' ∧ e'.embedding w = e.embedding w := by
  unfold Embeddings.embeddingWithNorm at h h'
  simp only [hi, hi', Res.ok_bind] at h h'
  obtain ⟨m, hm, h⟩ := Res.bind_eq_ok.mp h
  obtain ⟨m', hm', h'⟩ := Res.bind_eq_ok.mp h'
  obtain ⟨c1, r1⟩ := ((hb is).1 m).mp hm
  obtain ⟨c2, r2⟩ := ((hb' is).1 m').mp hm'
  have e1 : l2Normalize m.sumAxis0 = (v, n) := by cases h; rfl
  have e2 : l2Normalize m'.sumAxis0 = (v', n') := by cases h'; rfl
  have key := normalize_scaledIf (sumAxis0_scaledIf (by rw [c1, c2, hc]) (forall₂_of_rows is hr r1 r2)) (hs m hm)
    (by rw [e2]; exact hf)
  have key' := key
  rw [e1, e2] at key
  refine ⟨key.1, key.2, ?_⟩
  unfold Embeddings.embedding
  simp only [hi, hi', Res.ok_bind, hm, hm', key'.1]

/-! ## Examples -/

/-- `(1, 4)` times `2^10`. -/
def exampleLarge : List F32 := [0x44800000, 0x45800000]

theorem exampleLarge_scaled : ScaledVec 10 exampleVec exampleLarge := by
  have h : ∀ x y : F32, Finite x → Finite y → isNeg y = isNeg x → magUnits (f32Mag y) = 2 ^ 10 * magUnits (f32Mag x) → Scaled 10 x y :=
    fun x y hx hy hs hm => (scaled_iff hx hy hs).mpr hm
  exact .cons (h _ _ (by unfold Finite; decide) (by unfold Finite; decide) (by decide) (by decide))
    (.cons (h _ _ (by unfold Finite; decide) (by unfold Finite; decide) (by decide) (by decide)) .nil)

theorem exampleVec_squarable : Squarable exampleVec := by
  intro x hx
  right
  rcases List.mem_cons.mp hx with rfl | hx
  · rw [val_one]; norm_num
  · rcases List.mem_cons.mp hx with rfl | hx
    · rw [val_four]; norm_num
    · cases hx

/-- The hypotheses of `c117_normalize` and `c117_query` can be met. -/
example : ScaledVec 10 exampleVec exampleLarge ∧ Squarable exampleVec ∧ Finite (l2Normalize exampleLarge).2 ∧
    (l2Normalize exampleLarge).1 = [1048075075, 1064852291] :=
  ⟨exampleLarge_scaled, exampleVec_squarable, by unfold Finite; decide +kernel, by decide +kernel⟩

/-- The condition on small components is needed: the vectors `(2^-100)` and `(1)` are not normalised to the same vector. -/
theorem c117_small : ScaledVec 100 [0x0d800000] [0x3f800000] ∧ Finite (l2Normalize ([0x3f800000] : List F32)).2 ∧
    (l2Normalize ([0x0d800000] : List F32)).1 = [0x0d800000] ∧ (l2Normalize ([0x3f800000] : List F32)).1 = [0x3f800000] := by
  refine ⟨.cons ((scaled_iff (by unfold Finite; decide) (by unfold Finite; decide) (by decide)).mpr (by decide)) .nil,
    by unfold Finite; decide +kernel, by decide +kernel, by decide +kernel⟩

/-- The file `exampleSame` with the second vector times `2^10`. -/
def exampleSameLarge : Bytes :=
  [0x32, 0x20, 0x32, 0x0a, 0x61, 0x20, 0, 0, 0x80, 0x3f, 0, 0, 0x80, 0x40, 0x0a, 0x62, 0x20, 0, 0, 0x80, 0x44, 0, 0, 0x80, 0x45, 0x0a]

theorem scaledVec_refl {v : List F32} (h : ∀ x ∈ v, Finite x) : ScaledVec 0 v v := by
  induction v with
  | nil => exact .nil
  | cons x v ih =>
    have hx := h x (List.mem_cons_self ..)
    exact .cons ⟨hx, hx, rfl, by simp⟩ (ih fun y hy => h y (List.mem_cons_of_mem _ hy))

/-- Two word2vec files meet the hypotheses of `c117_readers`. -/
example : ∃ (r r' e e' : Embeddings Str SimpleVocab (NdArray F32) F32),
    Embeddings.readWord2vecRaw false exampleSame 0 = .ok (r, 25) ∧ Embeddings.readWord2vecRaw false exampleSameLarge 0 = .ok (r', 25) ∧
    FilesScaled [0, 10] r r' ∧ Embeddings.readWord2vec false exampleSame 0 = .ok (e, 25) ∧
    Embeddings.readWord2vec false exampleSameLarge 0 = .ok (e', 25) ∧ FiniteNorms e' := by
  refine ⟨⟨none, ⟨⟨2, [exampleVec, exampleVec]⟩⟩, ⟨(HMap.empty.insert ['a'] 0).insert ['b'] 1, [['a'], ['b']]⟩, none⟩,
    ⟨none, ⟨⟨2, [exampleVec, exampleLarge]⟩⟩, ⟨(HMap.empty.insert ['a'] 0).insert ['b'] 1, [['a'], ['b']]⟩, none⟩,
    ⟨none, ⟨⟨2, [[1048075075, 1064852291], [1048075075, 1064852291]]⟩⟩,
      ⟨(HMap.empty.insert ['a'] 0).insert ['b'] 1, [['a'], ['b']]⟩, some ⟨[1082388603, 1082388603]⟩⟩,
    ⟨none, ⟨⟨2, [[1048075075, 1064852291], [1048075075, 1064852291]]⟩⟩,
      ⟨(HMap.empty.insert ['a'] 0).insert ['b'] 1, [['a'], ['b']]⟩, some ⟨[1082388603, 1166274683]⟩⟩,
    by decide +kernel, by decide +kernel, ⟨rfl, rfl, ⟨rfl, rfl, ?_⟩, ?_⟩, by decide +kernel, by decide +kernel, ?_⟩
  · intro i k r r' hk hr hr'
    match i with
    | 0 => cases hk; cases hr; cases hr'; exact scaledVec_refl (by unfold Finite; decide)
    | 1 => cases hk; cases hr; cases hr'; exact exampleLarge_scaled
    | i + 2 => simp at hk
  · intro r hr
    have : r = exampleVec := by simpa using hr
    rw [this]; exact exampleVec_squarable
  · intro ns hns n hn
    cases hns
    unfold Finite
    revert n
    decide

/-- `exampleUnknown` with all vectors times `2^10`. -/
def exampleUnknownLarge : Embeddings Str BucketSubwordVocab (NdArray F32) F32 :=
  ⟨none, ⟨⟨2, [exampleLarge, exampleLarge, exampleLarge, exampleLarge]⟩⟩, ⟨['<'], ['>'], ⟨2, 3⟩, HMap.empty, [], 3, 3⟩, none⟩

/-- The hypotheses of `c117_oov` can be met: the word `b` has one n-gram. -/
example : BatchIsRows exampleUnknown.storage ∧ BatchIsRows exampleUnknownLarge.storage ∧
    Vocab.idx exampleUnknown.vocab ['b'] = .ok (some (.subword [2])) ∧
    Vocab.idx exampleUnknownLarge.vocab ['b'] = .ok (some (.subword [2])) ∧
    (∀ i ∈ [2], ∀ r r', embedding exampleUnknown.storage i = .ok r → embedding exampleUnknownLarge.storage i = .ok r' →
      ScaledVec 10 r r') ∧
    (∀ m : Mat F32, embeddings exampleUnknown.storage [2] = .ok m → Squarable m.sumAxis0) ∧
    exampleUnknown.embeddingWithNorm ['b'] = .ok (some ([1048075075, 1064852291], 1082388603)) ∧
    exampleUnknownLarge.embeddingWithNorm ['b'] = .ok (some ([1048075075, 1064852291], 1166274683)) ∧ Finite 1166274683 := by
  refine ⟨c47_array _, c47_array _, by decide +kernel, by decide +kernel, ?_, ?_, by decide +kernel, by decide +kernel,
    by unfold Finite; decide⟩
  · intro i hi r r' hr hr'
    have : i = 2 := by simpa using hi
    subst this
    have h1 : embedding exampleUnknown.storage 2 = .ok exampleVec := rfl
    have h2 : embedding exampleUnknownLarge.storage 2 = .ok exampleLarge := rfl
    rw [h1] at hr; rw [h2] at hr'
    cases hr; cases hr'
    exact exampleLarge_scaled
  · intro m hm
    have h1 : embeddings exampleUnknown.storage [2] = .ok ⟨2, [exampleVec]⟩ := rfl
    rw [h1] at hm
    cases hm
    have e : ((⟨2, [exampleVec]⟩ : Mat F32)).sumAxis0 = exampleVec := by decide +kernel
    rw [e]; exact exampleVec_squarable

end Ieee

/-- **C117** (exact arithmetic). Without rounding, the factor can be any positive number and the vector any vector. -/
theorem c117_exact (c : ℝ) (hc : 0 < c) (v : List ℝ) :
    (l2Normalize (v.map (c * ·))).1 = (l2Normalize v).1 ∧ (l2Normalize (v.map (c * ·))).2 = c * (l2Normalize v).2 := by
  have hd : ∀ u : List ℝ, (List.zipWith (· * ·) (u.map (c * ·)) (u.map (c * ·))).sum = c ^ 2 * (List.zipWith (· * ·) u u).sum := by
    intro u
    induction u with
    | nil => simp
    | cons x u ih =>
      simp only [List.map_cons, List.zipWith_cons_cons, List.sum_cons, ih]
      ring
  have hn : (l2Normalize (v.map (c * ·))).2 = c * (l2Normalize v).2 := by
    show Real.sqrt _ = c * Real.sqrt _
    show Real.sqrt ((List.zipWith (· * ·) (v.map (c * ·)) (v.map (c * ·))).sum) = c * Real.sqrt ((List.zipWith (· * ·) v v).sum)
    rw [hd, Real.sqrt_mul (by positivity), Real.sqrt_sq hc.le]
  refine ⟨?_, hn⟩
  have e : ∀ u : List ℝ, (l2Normalize u).1 = if (l2Normalize u).2 = 0 then u else u.map (· / (l2Normalize u).2) := by
    intro u
    show (if @decide ((l2Normalize u).2 = 0) (Classical.propDecidable _) = true then u else u.map (· / (l2Normalize u).2)) = _
    simp only [decide_eq_true_eq]
  rw [e, e v, hn]
  by_cases h0 : (l2Normalize v).2 = 0
  · rw [h0, mul_zero, if_pos rfl, if_pos rfl]
    have hz : (List.zipWith (· * ·) v v).sum = 0 := by
      have h1 : Real.sqrt ((List.zipWith (· * ·) v v).sum) = 0 := h0
      have h2 : ∀ u : List ℝ, 0 ≤ (List.zipWith (· * ·) u u).sum := by
        intro u
        induction u with
        | nil => simp
        | cons x u ih => simp only [List.zipWith_cons_cons, List.sum_cons]; nlinarith [mul_self_nonneg x]
      exact le_antisymm (Real.sqrt_eq_zero'.mp h1) (h2 v)
    have hall : ∀ u : List ℝ, (List.zipWith (· * ·) u u).sum = 0 → u.map (c * ·) = u := by
      intro u
      induction u with
      | nil => simp
      | cons x u ih =>
        intro h
        simp only [List.zipWith_cons_cons, List.sum_cons] at h
        have h2 : ∀ u : List ℝ, 0 ≤ (List.zipWith (· * ·) u u).sum := by
          intro u
          induction u with
          | nil => simp
          | cons x u ih => simp only [List.zipWith_cons_cons, List.sum_cons]; nlinarith [mul_self_nonneg x]
        have hx : x = 0 := by nlinarith [h2 u, mul_self_nonneg x]
        have hu := ih (by nlinarith [h2 u, mul_self_nonneg x])
        rw [List.map_cons, hu, hx, mul_zero]
    exact hall v hz
  · rw [if_neg h0, if_neg (mul_ne_zero hc.ne' h0), List.map_map]
    apply List.map_congr_left
    intro x _
    show c * x / (c * _) = x / _
    rw [mul_div_mul_left _ _ hc.ne']

/-- A vector that is not zero: `(3, 4)`, times `1/10`. -/
example : (l2Normalize ([3, 4] : List ℝ)).2 = 5 ∧ (l2Normalize (([3, 4] : List ℝ).map ((1 / 10) * ·))).2 = 1 / 10 * 5 := by
  have h : (l2Normalize ([3, 4] : List ℝ)).2 = 5 := by
    show Real.sqrt ((List.zipWith (· * ·) ([3, 4] : List ℝ) [3, 4]).sum) = 5
    have : (List.zipWith (· * ·) ([3, 4] : List ℝ) [3, 4]).sum = 5 ^ 2 := by norm_num
    rw [this, Real.sqrt_sq (by norm_num)]
  exact ⟨h, by rw [(c117_exact (1 / 10) (by norm_num) [3, 4]).2, h]⟩

end FF
