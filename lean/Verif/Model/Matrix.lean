import Verif.Model.Stream

/-!
# Scalars and matrices

ndarray's `Array1`/`Array2` as used by src/chunks/storage, src/embeddings.rs, src/similarity.rs.
-/

namespace FF

/-- The `f32` operations used by the crate. Lookup theorems hold for every instance, in particular for
IEEE single precision; `dot` and `sum` are separate because ndarray's summation order is not fixed
(src/util.rs:70, src/similarity.rs:309, crate reductive's projection; `sum` see `Mat.sumAxis0`). `isZero x` is `x == 0.`
(negation of the test in src/util.rs:72). -/
class Scalar (F : Type) where
  zero : F
  one : F
  add : F → F → F
  sub : F → F → F
  mul : F → F → F
  div : F → F → F
  sqrt : F → F
  dot : List F → List F → F
  sum : List F → F
  isZero : F → Bool

/-- Cut `n` consecutive pieces of length `k` (row-major layout of an ndarray with outer length `n`). E.g.
src/chunks/storage/array.rs:353-355. -/
def chunks {α : Type} : Nat → Nat → List α → List (List α)
  | 0, _, _ => []
  | n + 1, k, xs => xs.take k :: chunks n k (xs.drop k)

@[simp] theorem chunks_length {α : Type} (n k : Nat) (xs : List α) : (chunks n k xs).length = n := by
  induction n generalizing xs with
  | zero => rfl
  | succ n ih => simp [chunks, ih]

theorem chunks_flatten {α : Type} (ls : List (List α)) (k : Nat) (h : ∀ l ∈ ls, l.length = k)
    (rest : List α) : chunks ls.length k (ls.flatten ++ rest) = ls := by
  induction ls with
  | nil => rfl
  | cons l ls ih =>
    have hl : l.length = k := h l (by simp)
    simp only [List.length_cons, chunks, List.flatten_cons, List.append_assoc]
    rw [List.take_left' hl, List.drop_left' hl, ih fun x hx => h x (by simp [hx])]

theorem chunks_mem_length {α : Type} {n k : Nat} {xs l : List α} (h : n * k ≤ xs.length)
    (hl : l ∈ chunks n k xs) : l.length = k := by
  induction n generalizing xs with
  | zero => simp [chunks] at hl
  | succ n ih =>
    have : (n + 1) * k = n * k + k := Nat.succ_mul n k
    simp only [chunks, List.mem_cons] at hl
    rcases hl with rfl | hl
    · simp; omega
    · exact ih (by simp; omega) hl

theorem flatten_chunks {α : Type} {n k : Nat} {xs : List α} (h : xs.length = n * k) :
    (chunks n k xs).flatten = xs := by
  induction n generalizing xs with
  | zero => simp at h; simp [chunks, h]
  | succ n ih =>
    have : (n + 1) * k = n * k + k := Nat.succ_mul n k
    simp only [chunks, List.flatten_cons]
    rw [ih (by simp; omega), List.take_append_drop]

theorem getElem?_chunks {α : Type} {n k i : Nat} {xs : List α} (h : i < n) :
    (chunks n k xs)[i]? = some ((xs.drop (i * k)).take k) := by
  induction n generalizing xs i with
  | zero => omega
  | succ n ih =>
    cases i with
    | zero => simp [chunks]
    | succ i =>
      simp only [chunks, List.getElem?_cons_succ]
      rw [ih (by omega), List.drop_drop, Nat.succ_mul, Nat.add_comm]

theorem length_flatten_of {α : Type} {ls : List (List α)} {k : Nat} (h : ∀ l ∈ ls, l.length = k) :
    ls.flatten.length = ls.length * k := by
  induction ls with
  | nil => simp
  | cons l ls ih =>
    simp only [List.flatten_cons, List.length_append, List.length_cons, Nat.succ_mul]
    rw [ih fun x hx => h x (by simp [hx]), h l (by simp)]; omega

/-- A two-dimensional array: its rows, and the number of columns (needed when there are no rows). The memory
layout of an `Array2` is not modelled, the crate only accesses it through rows. E.g.
src/chunks/storage/array.rs:190-193. -/
structure Mat (α : Type) where
  cols : Nat
  rows : List (List α)
deriving DecidableEq, Repr

namespace Mat
variable {α : Type}

/-- Invariant of an `Array2`: all rows have the same length. E.g. src/chunks/storage/array.rs:190-193. -/
def WF (m : Mat α) : Prop := ∀ r ∈ m.rows, r.length = m.cols

/-- `nrows()`. Users: e.g. src/chunks/storage/array.rs:234, src/chunks/storage/quantized.rs:206. -/
def nrows (m : Mat α) : Nat := m.rows.length

/-- `dim()`. User: src/chunks/storage/array.rs:297. -/
def dim (m : Mat α) : Nat × Nat := (m.nrows, m.cols)

/-- Number of elements, `len()`. User: src/chunks/storage/array.rs:208. -/
def len (m : Mat α) : Nat := m.nrows * m.cols

/-- `Array2` of shape `(n, k)` with the given row-major contents. Users: e.g.
src/chunks/storage/array.rs:353-358, src/compat/text.rs:266. -/
def ofFlat (n k : Nat) (xs : List α) : Mat α := ⟨k, chunks n k xs⟩

/-- `row(i)`: panics if out of bounds. Users: e.g. src/chunks/storage/array.rs:289,
src/chunks/storage/quantized.rs:276. -/
def row (m : Mat α) (i : Nat) : Res (List α) := Res.unwrap m.rows[i]?

/-- `select(Axis(0), indices)`: panics if an index is out of bounds. Users: src/chunks/storage/array.rs:293,
src/chunks/storage/quantized.rs:285, :311. -/
def select (m : Mat α) (is : List Nat) : Res (Mat α) := do
  let rs ← is.mapM m.row
  return ⟨m.cols, rs⟩

/-- ndarray's `sum_axis(Axis(0))` (users: src/embeddings.rs:141, :273): rows are added one after the other to
a zero vector, except that a matrix with a single column is summed along its (contiguous) column in
an unspecified order. -/
def sumAxis0 [Scalar α] (m : Mat α) : List α :=
  if m.cols = 1 then [Scalar.sum m.rows.flatten]
  else m.rows.foldl (List.zipWith Scalar.add) (List.replicate m.cols Scalar.zero)

theorem ofFlat_flatten {m : Mat α} (h : m.WF) : ofFlat m.nrows m.cols m.rows.flatten = m := by
  have := chunks_flatten m.rows m.cols h []
  simp only [List.append_nil] at this
  simp [ofFlat, nrows, this]

theorem ofFlat_wf {n k : Nat} {xs : List α} (h : n * k ≤ xs.length) : (ofFlat n k xs).WF :=
  fun _ hr => chunks_mem_length h hr

@[simp] theorem ofFlat_nrows (n k : Nat) (xs : List α) : (ofFlat n k xs).nrows = n := by
  simp [ofFlat, nrows]
@[simp] theorem ofFlat_cols (n k : Nat) (xs : List α) : (ofFlat n k xs).cols = k := rfl

theorem flatten_length {m : Mat α} (h : m.WF) : m.rows.flatten.length = m.len :=
  length_flatten_of h

end Mat

/-- The allocation of `Array::zeros(shape)` (ndarray) with elements of `size` bytes: panics if the product of
the non-zero lengths, or the number of bytes, exceeds `isize::MAX`. Users: src/chunks/norms.rs:79,
src/chunks/storage/array.rs:353, src/chunks/storage/quantized.rs:126, :140, src/compat/word2vec.rs:93,
src/compat/fasttext/io.rs:443. -/
def allocArray (size : Nat) (dims : List Nat) : Rd Unit :=
  Rd.lift (Res.assert (decide ((dims.filter (· ≠ 0)).prod ≤ isizeMax ∧ size * dims.prod ≤ isizeMax)))

theorem allocArray_readsAt {off size : Nat} {dims : List Nat}
    (h1 : (dims.filter (· ≠ 0)).prod ≤ isizeMax) (h2 : size * dims.prod ≤ isizeMax) :
    Rd.ReadsAt (allocArray size dims) off [] () := by
  intro pre post _
  simp only [allocArray, h1, h2, and_self, decide_true]
  simp [Res.assert]

theorem allocArray_mono (size dims) : Rd.Mono (allocArray size dims) := Rd.Mono.lift _

end FF
