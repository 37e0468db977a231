import Verif.Props.Quantize
import Verif.Props.FastTextRoundtrip

/-!
# Quality of quantized embeddings in exact arithmetic (C63)
-/

namespace FF

open Rd Res

variable {S : Type} [Storage S ℝ] [StorageView S ℝ]

/-- Specification: Euclidean distance of two vectors. -/
noncomputable def distance (v w : List ℝ) : ℝ := Real.sqrt (((v.zip w).map fun p => (p.1 - p.2) ^ 2).sum)

theorem distance_eq_zero {v w : List ℝ} (hl : v.length = w.length) : distance v w = 0 ↔ v = w := by
  unfold distance
  have hnn : ∀ u x : List ℝ, 0 ≤ ((u.zip x).map fun p => (p.1 - p.2) ^ 2).sum := by
    intro u x
    apply List.sum_nonneg
    intro y hy
    obtain ⟨p, _, rfl⟩ := List.mem_map.mp hy
    positivity
  rw [Real.sqrt_eq_zero (hnn v w)]
  induction v generalizing w with
  | nil => cases w with
    | nil => simp
    | cons y w => simp at hl
  | cons x v ih => cases w with
    | nil => simp at hl
    | cons y w =>
      simp only [List.length_cons, Nat.add_right_cancel_iff] at hl
      simp only [List.zip_cons_cons, List.map_cons, List.sum_cons, List.cons.injEq]
      have h1 := hnn v w
      have h2 := sq_nonneg (x - y)
      have ih' := ih hl
      constructor
      · intro h
        refine ⟨?_, ih'.mp (by linarith)⟩
        have : (x - y) ^ 2 = 0 := by linarith
        linarith [pow_eq_zero_iff (two_ne_zero) |>.mp this]
      · rintro ⟨rfl, h⟩
        rw [ih'.mpr h]; ring

theorem distance_scale (v w : List ℝ) (c : ℝ) (hc : 0 ≤ c) :
    distance (v.map (· * c)) (w.map (· * c)) = distance v w * c := by
  unfold distance
  have : (((v.map (· * c)).zip (w.map (· * c))).map fun p => (p.1 - p.2) ^ 2).sum
      = ((v.zip w).map fun p => (p.1 - p.2) ^ 2).sum * c ^ 2 := by
    induction v generalizing w with
    | nil => simp
    | cons x v ih => cases w with
      | nil => simp
      | cons y w => simp only [List.map_cons, List.zip_cons_cons, List.sum_cons, ih w]; ring
  rw [this, Real.sqrt_mul' _ (sq_nonneg c), Real.sqrt_sq hc]

/-- C63, what the quantizer sees: it is trained on, and encodes, the matrix whose rows are the rows of the storage, in their
order, each divided by its Euclidean norm if normalisation was asked for; these norms are stored. -/
theorem c63_seen (t : PqTrainer ℝ) (k bits it att : Nat) (normalize : Bool) (s : S)
    (hs : ViewIsRows s) (a : QuantizedArray ℝ) (ha : quantizeStorage t k bits it att normalize s = .ok a) :
    ∃ m, t.train k bits it att m = .ok a.quantizer ∧ t.quantizeBatch a.quantizer m = .ok a.codes ∧
      m.cols = (shape s).2 ∧ m.rows.length = (shape s).1 ∧
      ∀ i r, i < (shape s).1 → embedding s i = .ok r →
        m.rows[i]? = some (if normalize then r.map (· / euclideanNorm r) else r) ∧
        (a.norms.map fun ns => ns[i]?) = if normalize then some (some (euclideanNorm r)) else none := by
  obtain ⟨_, m, hm, hq, hc, hn⟩ := quantizeStorage_eq_ok.mp ha
  obtain ⟨hdim, hrect, hrows⟩ := hs m hm
  have hn1 : m.rows.length = (shape s).1 := congrArg Prod.fst hdim
  have hn2 : m.cols = (shape s).2 := congrArg Prod.snd hdim
  have hnorm : ∀ r : List ℝ, Scalar.sqrt (Scalar.dot r r) = euclideanNorm r := fun r => by rw [dot_self]; rfl
  refine ⟨_, hq, hc, ?_, ?_, fun i r hi hr => ?_⟩
  · cases normalize <;> exact hn2
  · cases normalize
    · exact hn1
    · show (List.zipWith _ _ _).length = _
      rw [List.length_zipWith, List.length_map, Nat.min_self, hn1]
  · have him : i < m.rows.length := by omega
    have hri : m.rows[i] = r := by
      have := hrows i him
      rw [hr] at this; cases this; rfl
    rw [hn]
    cases normalize
    · exact ⟨by show m.rows[i]? = _; rw [List.getElem?_eq_getElem him, hri]; rfl, rfl⟩
    · constructor
      · show (List.zipWith _ _ _)[i]? = _
        rw [List.getElem?_zipWith, List.getElem?_map, List.getElem?_eq_getElem him, hri]
        show some (r.map (Scalar.div · (Scalar.sqrt (Scalar.dot r r)))) = _
        rw [hnorm]; rfl
      · show some ((m.rows.map _)[i]?) = _
        rw [List.getElem?_map, List.getElem?_eq_getElem him, hri]
        show some (some (Scalar.sqrt (Scalar.dot r r))) = _
        rw [hnorm]; rfl

/-- C63: let a storage be quantized, and let `r` be a row of it (not the zero vector if normalisation was asked
for). The quantizer sees the row itself, or the row divided by its Euclidean norm; if it reconstructs this vector
as `r'`, then looking the row up in the quantized storage gives a vector whose distance to `r` is the distance
between `r'` and what the quantizer has seen, times the norm of `r` if normalisation was asked for. -/
theorem c63_error (t : PqTrainer ℝ) (ht : TrainerContract t) (k bits it att : Nat) (normalize : Bool) (s : S)
    (hs : ViewIsRows s) (a : QuantizedArray ℝ)
    (ha : quantizeStorage t k bits it att normalize s = .ok a)
    (i : Nat) (r : List ℝ) (hi : i < (shape s).1) (hr : embedding s i = .ok r)
    (hz : normalize = true → ∃ x ∈ r, x ≠ 0) :
    ∃ code r' v, a.codes.rows[i]? = some code ∧ a.quantizer.reconstruct code = .ok r' ∧
      embedding a i = .ok v ∧ v.length = r.length ∧
      (normalize = false → v = r' ∧ distance v r = distance r' r) ∧
      (normalize = true → v = r'.map (· * euclideanNorm r) ∧
        distance v r = distance r' (r.map (· / euclideanNorm r)) * euclideanNorm r) := by
  obtain ⟨_, m, hm, hq, hc, hn⟩ := quantizeStorage_eq_ok.mp ha
  obtain ⟨_, _, hshape, _, _, _, _, hawf, htot⟩ := c57_ok t ht k bits it att normalize s hs a ha
  obtain ⟨hdim, hrect, hrows⟩ := hs m hm
  have hn1 : m.rows.length = (shape s).1 := congrArg Prod.fst hdim
  have hn2 : m.cols = (shape s).2 := congrArg Prod.snd hdim
  have him : i < m.rows.length := by omega
  have hri : m.rows[i] = r := by
    have := hrows i him
    rw [hr] at this; cases this; rfl
  have hrl : r.length = (shape s).2 := by
    rw [← hn2, ← hri]; exact hrect _ (List.getElem_mem him)
  obtain ⟨v, hv, hvl⟩ := htot i hi
  have hv' : quantizedRow a.quantizer a.norms a.codes.row i = .ok v := hv
  unfold quantizedRow at hv'
  obtain ⟨code, hcode, hv'⟩ := bind_eq_ok.mp hv'
  obtain ⟨r', hr', hv'⟩ := bind_eq_ok.mp hv'
  refine ⟨code, r', v, unwrap_eq_ok.mp hcode, hr', hv, by rw [hvl, hrl], ?_, ?_⟩
  · rintro rfl
    have hn : a.norms = none := hn
    rw [hn] at hv'
    have : v = r' := by cases hv'; rfl
    exact ⟨this, by rw [this]⟩
  · rintro rfl
    have hn : a.norms = some (m.rows.map fun r => Scalar.sqrt (Scalar.dot r r)) := hn
    rw [hn] at hv'
    obtain ⟨n, hnn, hv'⟩ := bind_eq_ok.mp hv'
    have hnn := unwrap_eq_ok.mp hnn
    rw [List.getElem?_map, List.getElem?_eq_getElem him, hri] at hnn
    have hne : n = euclideanNorm r := by
      simp only [Option.map_some, Option.some.injEq] at hnn
      rw [← hnn, dot_self]; rfl
    have hveq : v = r'.map (· * euclideanNorm r) := by
      rw [← hne]
      have : (Res.ok (scale r' n) : Res (List ℝ)) = .ok v := hv'
      cases this; rfl
    have hpos : euclideanNorm r ≠ 0 := by
      intro h0
      obtain ⟨x, hx, hx0⟩ := hz rfl
      exact hx0 (euclideanNorm_eq_zero.mp h0 x hx)
    refine ⟨hveq, ?_⟩
    have hback : (r.map (· / euclideanNorm r)).map (· * euclideanNorm r) = r := by
      rw [List.map_map]
      conv_rhs => rw [← List.map_id r]
      apply List.map_congr_left
      intro x _
      simp [div_mul_cancel₀ _ hpos]
    have hd := distance_scale r' (r.map (· / euclideanNorm r)) (euclideanNorm r) (Real.sqrt_nonneg _)
    rw [hback] at hd
    rw [hveq, hd]

/-- C63, lossless case: if the quantizer reconstructs what it has seen of a row exactly, the quantized storage
returns the original row. -/
theorem c63_lossless (t : PqTrainer ℝ) (ht : TrainerContract t) (k bits it att : Nat) (normalize : Bool) (s : S)
    (hs : ViewIsRows s) (a : QuantizedArray ℝ)
    (ha : quantizeStorage t k bits it att normalize s = .ok a)
    (i : Nat) (r : List ℝ) (hi : i < (shape s).1) (hr : embedding s i = .ok r)
    (hz : normalize = true → ∃ x ∈ r, x ≠ 0)
    (hex : ∀ code, a.codes.rows[i]? = some code →
      a.quantizer.reconstruct code = .ok (if normalize then r.map (· / euclideanNorm r) else r)) :
    embedding a i = .ok r := by
  obtain ⟨code, r', v, hc, hr', hv, hl, h0, h1⟩ := c63_error t ht k bits it att normalize s hs a ha i r hi hr hz
  have := hex code hc
  rw [hr'] at this
  cases normalize with
  | false => cases this; rw [hv, (h0 rfl).1]; rfl
  | true =>
    simp only [if_true, Res.ok.injEq] at this
    have hd := (h1 rfl).2
    rw [this, (distance_eq_zero rfl).mpr rfl, zero_mul] at hd
    rw [hv, (distance_eq_zero hl).mp hd]

/-- Three vectors, of which the first two become centroids. -/
def exampleRealMatrix : NdArray ℝ := ⟨⟨2, [[3, 4], [0, 5], [1, 0]]⟩⟩

/-- The hypotheses of `c63_seen`, `c63_error` and `c63_lossless` hold for a concrete case with normalisation: row 1 is encoded
exactly. -/
example : ViewIsRows exampleRealMatrix ∧ ∃ a,
    quantizeStorage (firstRows ℝ) 1 1 10 1 true exampleRealMatrix = .ok a ∧
    embedding exampleRealMatrix 1 = .ok [0, 5] ∧ (∃ x ∈ ([0, 5] : List ℝ), x ≠ 0) ∧
    ∀ code, a.codes.rows[1]? = some code →
      a.quantizer.reconstruct code = .ok ([0, 5].map (· / euclideanNorm [0, 5])) := by
  refine ⟨c57_view_array _ ?_, _, rfl, rfl, ⟨5, by simp, by norm_num⟩, ?_⟩
  · intro r hr
    simp only [exampleRealMatrix, List.mem_cons, List.not_mem_nil, or_false] at hr
    rcases hr with rfl | rfl | rfl <;> rfl
  · intro code hc
    have hc : some [(1 : UInt8)] = some code := hc
    cases hc
    show Res.ok ([0, 5].map (· / Real.sqrt (Scalar.dot [0, 5] [0, 5]))) = _
    rw [dot_self]; rfl

end FF
