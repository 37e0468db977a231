import Verif.Props.TruncatedText
import Verif.Props.Concat

/-!
# C115: truncated text files without a first line, with normalisation
-/

namespace FF

open Rd Embeddings

section
variable {T F : Type} [Scalar F] [FloatText F]

omit [Scalar F] in
theorem readTextRaw_drop (lossy : Bool) (d : Bytes) (pos : Nat) :
    (readTextRaw lossy d pos : Res (Embeddings T SimpleVocab (NdArray F) F)) = readTextRaw lossy (d.drop pos) 0 := by
  unfold readTextRaw readEmbeds
  rw [List.drop_zero]

theorem readText_drop (lossy : Bool) (d : Bytes) (pos : Nat) :
    (readText lossy d pos : Res (Embeddings T SimpleVocab (NdArray F) F)) = readText lossy (d.drop pos) 0 := by
  unfold readText
  rw [readTextRaw_drop]

/-- What the normalising reader makes of embeddings. -/
theorem readText_raw (lossy : Bool) (d : Bytes) (pos : Nat) (e : Embeddings T SimpleVocab (NdArray F) F) :
    readText lossy d pos = .ok e ↔ ∃ e0 : Embeddings T SimpleVocab (NdArray F) F, readTextRaw lossy d pos = .ok e0 ∧
      e = ⟨none, ⟨⟨e0.storage.inner.cols, e0.storage.inner.rows.map fun r => (l2Normalize r).1⟩⟩,
        e0.vocab, some ⟨e0.storage.inner.rows.map fun r => (l2Normalize r).2⟩⟩ := by
  rw [readText_drop, readText_iff, readTextRaw_drop lossy d pos]

/-- **C115** (cut at the end of a line, with normalisation). The words, vectors and norms of the lines that are left. -/
theorem c115_line_end_norms (lossy : Bool) (d : Bytes) (pos m k : Nat) (lines lines' : List Bytes) (rows : List (Str × List F))
    (e : Embeddings T SimpleVocab (NdArray F) F) (h : readText lossy d pos = .ok e)
    (hl : IsLines (d.drop pos) lines) (hr : LinesHave lossy lines rows) (hk : ∀ r ∈ rows, r.2.length = k)
    (hl' : IsLines ((d.take m).drop pos) lines') (hpre : lines' <+: lines) (hne : lines' ≠ []) :
    ∃ (e' : Embeddings T SimpleVocab (NdArray F) F) (ns : List F), readText lossy (d.take m) pos = .ok e' ∧
      e'.metadata = none ∧ e.norms = some ⟨ns⟩ ∧ e'.norms = some ⟨ns.take lines'.length⟩ ∧
      SimpleVocab.new (e.vocab.words.take lines'.length) = .ok e'.vocab ∧
      e'.storage.inner = ⟨e.storage.inner.cols, e.storage.inner.rows.take lines'.length⟩ := by
  obtain ⟨e0, h0, rfl⟩ := (readText_raw lossy d pos e).mp h
  obtain ⟨e', g, -, -, hv, hs⟩ := c115_line_end lossy d pos m k lines lines' rows e0 h0 hl hr hk hl' hpre hne
  refine ⟨_, _, (readText_raw lossy (d.take m) pos _).mpr ⟨e', g, rfl⟩, rfl, rfl, ?_, hv, ?_⟩
  · rw [hs, ← List.map_take]
  · show (⟨e'.storage.inner.cols, e'.storage.inner.rows.map _⟩ : Mat F) = _
    rw [hs, List.map_take]

omit [Scalar F] [FloatText F] in
theorem rows_dropLast {k : Nat} (hk : 0 < k) : ∀ {rs rs' : List (List F)}, (∀ r ∈ rs, r.length = k) → (∀ r ∈ rs', r.length = k) →
    rs.length = rs'.length → rs.flatten.dropLast = rs'.flatten.dropLast → rs.dropLast = rs'.dropLast
  | [], [], _, _, _, _ => rfl
  | [_], [_], _, _, _, _ => rfl
  | x :: x2 :: xs, y :: y2 :: ys, h1, h2, hl, hf => by
    have hne : ∀ {z : List F} {zs : List (List F)}, z.length = k → (z :: zs).flatten ≠ [] := by
      intro z zs hz h0
      rw [List.flatten_cons, List.append_eq_nil_iff] at h0
      rw [h0.1] at hz
      exact absurd hz (Nat.ne_of_lt hk)
    rw [List.flatten_cons, List.flatten_cons (l := y), List.dropLast_append_of_ne_nil (hne (h1 x2 (by simp))),
      List.dropLast_append_of_ne_nil (hne (h2 y2 (by simp)))] at hf
    obtain ⟨rfl, hf'⟩ := List.append_inj hf (by rw [h1 x (by simp), h2 y (by simp)])
    rw [List.dropLast_cons_cons, List.dropLast_cons_cons, rows_dropLast hk (fun r hr => h1 r (List.mem_cons_of_mem _ hr))
      (fun r hr => h2 r (List.mem_cons_of_mem _ hr)) (by simpa using hl) hf']

/-- **C115** (cut anywhere, with normalisation). As `c115_cut_partial`: an error, or the words that are left, and the vectors and
norms of all of them but the last.

Missing: the case that `k` or fewer lines are left, for which this is false (`c115_false`). -/
theorem c115_cut_norms_partial (lossy : Bool) (d : Bytes) (pos m k : Nat) (lines lines' : List Bytes) (rows : List (Str × List F))
    (e : Embeddings T SimpleVocab (NdArray F) F) (h : readText lossy d pos = .ok e)
    (hl : IsLines (d.drop pos) lines) (hr : LinesHave lossy lines rows) (hk : ∀ r ∈ rows, r.2.length = k) (hk0 : 0 < k)
    (hl' : IsLines ((d.take m).drop pos) lines') (hmany : k < lines'.length) :
    (∃ x, (readText lossy (d.take m) pos : Res (Embeddings T SimpleVocab (NdArray F) F)) = .err x) ∨
    ∃ (e' : Embeddings T SimpleVocab (NdArray F) F) (ns ns' : List F), readText lossy (d.take m) pos = .ok e' ∧
      e'.metadata = none ∧ e.norms = some ⟨ns⟩ ∧ e'.norms = some ⟨ns'⟩ ∧
      SimpleVocab.new (e.vocab.words.take lines'.length) = .ok e'.vocab ∧
      e'.storage.inner.dim = (⟨e.storage.inner.cols, e.storage.inner.rows.take lines'.length⟩ : Mat F).dim ∧
      e'.storage.inner.rows.dropLast = (e.storage.inner.rows.take lines'.length).dropLast ∧
      ns'.length = (ns.take lines'.length).length ∧ ns'.dropLast = (ns.take lines'.length).dropLast := by
  obtain ⟨e0, h0, rfl⟩ := (readText_raw lossy d pos e).mp h
  rcases c115_cut_partial lossy d pos m k lines lines' rows e0 h0 hl hr hk hk0 hl' hmany with ⟨x, hx⟩ | ⟨e', g, -, -, hv, hs⟩
  · left
    refine ⟨x, ?_⟩
    unfold readText
    rw [hx]
    rfl
  · right
    obtain ⟨s1, s2, s3⟩ := hs
    obtain ⟨hnd, hw, hst⟩ := readTextRaw_rows h0 hl hr hk
    have hc : e'.storage.inner.cols = k := by
      have := congrArg Prod.snd s1
      rw [hst] at this
      exact this
    have hwf : e'.storage.inner.WF := by
      rw [readTextRaw_drop] at g
      obtain ⟨r1, k1, -, -, -, f1, rfl⟩ := (readTextRaw_iff lossy _ e').mp g
      exact Mat.ofFlat_wf (Nat.le_of_eq f1.symm)
    have hd : e'.storage.inner.rows.dropLast = (e0.storage.inner.rows.take lines'.length).dropLast := by
      refine rows_dropLast hk0 ?_ ?_ (congrArg Prod.fst s1) s3
      · intro r hr
        rw [hwf r hr, hc]
      · intro r hr
        rw [hst] at hr
        obtain ⟨x, hx, rfl⟩ := List.mem_map.mp (List.mem_of_mem_take hr)
        exact hk x hx
    refine ⟨_, _, _, (readText_raw lossy (d.take m) pos _).mpr ⟨e', g, rfl⟩, rfl, rfl, rfl, hv, ?_, ?_, ?_, ?_⟩
    · have hcols : e'.storage.inner.cols = e0.storage.inner.cols := congrArg Prod.snd s1
      refine Prod.ext ?_ hcols
      show (e'.storage.inner.rows.map _).length = ((e0.storage.inner.rows.map _).take _).length
      rw [← List.map_take, List.length_map, List.length_map]
      exact congrArg Prod.fst s1
    · show (e'.storage.inner.rows.map _).dropLast = ((e0.storage.inner.rows.map _).take _).dropLast
      rw [← List.map_take, ← List.map_dropLast, hd, List.map_dropLast]
    · rw [← List.map_take, List.length_map, List.length_map]
      exact congrArg Prod.fst s1
    · rw [← List.map_take, ← List.map_dropLast, hd, List.map_dropLast]

end

/-! ## Examples -/

section
attribute [local instance] exampleScalar exampleFloatText

/-- `c115_cut_norms_partial` and `c115_line_end_norms` applied to a file of three lines with one component, of which two are
left. In the first case the second one is incomplete. -/
example (e : Embeddings Unit SimpleVocab (NdArray F32) F32) (h : readText true (ascii "a 1\nb 23\nc 4\n") 0 = .ok e) :=
  c115_cut_norms_partial (T := Unit) true (ascii "a 1\nb 23\nc 4\n") 0 7 1 [ascii "a 1", ascii "b 23", ascii "c 4"]
    [ascii "a 1", ascii "b 2"] [(['a'], [1]), (['b'], [23]), (['c'], [4])] e h ⟨by decide, .inl (by decide +kernel)⟩
    (linesHave_iff.mp (by decide +kernel)) (by decide) (by decide)
    ⟨by decide, .inr ⟨[ascii "a 1"], ascii "b 2", rfl, by decide, by decide +kernel⟩⟩ (by decide)
example (e : Embeddings Unit SimpleVocab (NdArray F32) F32) (h : readText false (ascii "a 1\nb 23\nc 4\n") 0 = .ok e) :=
  c115_line_end_norms (T := Unit) false (ascii "a 1\nb 23\nc 4\n") 0 8 1 [ascii "a 1", ascii "b 23", ascii "c 4"]
    [ascii "a 1", ascii "b 23"] [(['a'], [1]), (['b'], [23]), (['c'], [4])] e h ⟨by decide, .inl (by decide +kernel)⟩
    (linesHave_iff.mp (by decide +kernel)) (by decide)
    ⟨by decide, .inr ⟨[ascii "a 1"], ascii "b 23", rfl, by decide, by decide +kernel⟩⟩ (by decide) (by decide)

/-- The file is accepted. -/
example : ∃ e : Embeddings Unit SimpleVocab (NdArray F32) F32, readText false (ascii "a 1\nb 23\nc 4\n") 0 = .ok e :=
  ⟨_, (readText_raw _ _ _ _).mpr ⟨⟨none, ⟨⟨1, [[1], [23], [4]]⟩⟩,
    ⟨indexMap [['a'], ['b'], ['c']], [['a'], ['b'], ['c']]⟩, none⟩, by decide +kernel, rfl⟩⟩

end

end FF
