import Verif.Props.Truncated

/-!
# Truncated text files without a first line (C115)

Such files do not say how many words and components there are. The reader divides the number of components by the number
of lines, so an incomplete last line can go unnoticed.
-/

namespace FF

open Rd Embeddings

/-- The beginning of a file has lines of the file, except that the last one can be incomplete. -/
theorem IsLines.prefix_any {bs bs' : Bytes} {ls ls' : List Bytes} (h : IsLines bs ls) (h' : IsLines bs' ls')
    (hp : bs' <+: bs) (hne : ls' ≠ []) :
    ∃ init last last' rest, ls = init ++ last :: rest ∧ ls' = init ++ [last'] ∧ last' <+: last := by
  induction ls' generalizing bs bs' ls with
  | nil => exact absurd rfl hne
  | cons l' ls' ih =>
    cases ls with
    | nil =>
      exfalso
      have hb : bs = [] := by
        obtain ⟨-, h2 | ⟨init, last, h2, -⟩⟩ := h
        · simpa using h2
        · simp at h2
      subst hb
      have hb' : bs' = [] := by simpa using hp
      subst hb'
      have := h'.eq
      simp [textLines, rawLines, takeThrough] at this
    | cons l ls =>
      have n1 : 10 ∉ l := h.1 l (by simp)
      have n2 : 10 ∉ l' := h'.1 l' (by simp)
      have hbs : ∃ x, bs ++ [10] = l ++ 10 :: x := by
        cases ls with
        | nil =>
          obtain ⟨-, rfl | rfl⟩ := h.single
          · exact ⟨[], rfl⟩
          · exact ⟨[10], by simp⟩
        | cons l2 ls =>
          obtain ⟨b, rfl, -⟩ := h.tail
          exact ⟨b ++ [10], by simp⟩
      obtain ⟨x, hx⟩ := hbs
      cases ls' with
      | nil =>
        obtain ⟨-, e2⟩ := h'.single
        refine ⟨[], l, l', ls, rfl, rfl, ?_⟩
        have hp2 : l' <+: l ++ 10 :: x := by
          rw [← hx]
          refine List.IsPrefix.trans ?_ (hp.trans (List.prefix_append _ _))
          rcases e2 with rfl | rfl
          · exact List.prefix_refl _
          · exact List.prefix_append _ _
        obtain ⟨t, ht⟩ := hp2
        rcases List.append_eq_append_iff.mp ht with ⟨y, rfl, -⟩ | ⟨y, hy1, hy2⟩
        · exact List.prefix_append _ _
        · cases y with
          | nil => rw [hy1]; simp
          | cons c y =>
            rw [List.cons_append, List.cons.injEq] at hy2
            exact absurd (hy1 ▸ by simp [← hy2.1]) n2
      | cons l2' ls' =>
        obtain ⟨b', rfl, hb'⟩ := h'.tail
        obtain ⟨t, ht⟩ := hp
        have hll : l' = l := by
          have e1 := congrArg (takeThrough 10) (congrArg (· ++ [10]) ht)
          rw [hx, List.append_assoc, List.append_assoc, List.cons_append, takeThrough_append n2, takeThrough_append n1] at e1
          exact List.append_cancel_right e1
        subst hll
        cases ls with
        | nil =>
          exfalso
          have hlen := congrArg List.length ht
          have hpos : 0 < b'.length := by
            cases b' with
            | nil =>
              have := hb'.eq
              simp [textLines, rawLines, takeThrough] at this
            | cons c b' => simp
          obtain ⟨-, rfl | rfl⟩ := h.single <;>
            simp only [List.length_append, List.length_cons, List.length_nil] at hlen <;> omega
        | cons l2 ls =>
          obtain ⟨b, rfl, hb⟩ := h.tail
          have hp2 : b' <+: b := by
            rw [List.append_assoc, List.append_cancel_left_eq, List.cons_append, List.cons.injEq] at ht
            exact ⟨t, ht.2⟩
          obtain ⟨init, last, last', rest, a1, a2, a3⟩ := ih hb hb' hp2 (by simp)
          exact ⟨l' :: init, last, last', rest, by rw [a1]; rfl, by rw [a2]; rfl, a3⟩

section Text
variable {T F : Type} [FloatText F]

theorem linesHave_append {lossy : Bool} {init rest : List Bytes} {last : Bytes} {rows : List (Str × List F)} :
    LinesHave lossy (init ++ last :: rest) rows ↔
      ∃ ri r rr, rows = ri ++ r :: rr ∧ init.mapM (Embeddings.readTextLine lossy) = .ok ri ∧ LineHas lossy last r ∧
        LinesHave lossy rest rr := by
  rw [← linesHave_iff, List.mapM_append]
  constructor
  · intro h
    obtain ⟨ri, h1, h⟩ := Res.bind_eq_ok.mp h
    obtain ⟨rl, h2, h⟩ := Res.bind_eq_ok.mp h
    rw [List.mapM_cons] at h2
    obtain ⟨r, h3, h4⟩ := Res.bind_eq_ok.mp h2
    obtain ⟨rr, h5, h6⟩ := Res.bind_eq_ok.mp h4
    cases h6
    cases h
    exact ⟨ri, r, rr, rfl, h1, readTextLine_iff.mp h3, linesHave_iff.mp h5⟩
  · rintro ⟨ri, r, rr, rfl, h1, h2, h3⟩
    rw [h1, Res.ok_bind, List.mapM_cons, readTextLine_iff.mpr h2, Res.ok_bind, linesHave_iff.mpr h3]
    rfl

/-- An incomplete line has at most one component more. -/
theorem lineHas_prefix_length {lossy : Bool} {l l' : Bytes} {r r' : Str × List F} (h : LineHas lossy l r)
    (h' : LineHas lossy l' r') (hp : l' <+: l) : r'.2.length ≤ r.2.length + 1 := by
  obtain ⟨s, ps, hs, ht, hx⟩ := h
  obtain ⟨s', ps', hs', ht', hx'⟩ := h'
  obtain ⟨s0, x, rfl, hx0, b, rfl⟩ := decodeToken_prefix hs hs' hp
  have h1 := (parts_continued (a := s0) (b := b) hx0).length_le
  rw [ht.parts_eq, ht'.parts_eq] at h1
  have e1 : ps.length = r.2.length := by simpa using congrArg List.length hx
  have e2 : ps'.length = r'.2.length := by simpa using congrArg List.length hx'
  simp at h1
  omega

theorem lineHas_prefix {lossy : Bool} {l l' : Bytes} {r r' : Str × List F} (h : LineHas lossy l r)
    (h' : LineHas lossy l' r') (hp : l' <+: l) (hlen : r'.2.length = r.2.length) (hne : r.2 ≠ []) :
    r'.1 = r.1 ∧ r'.2.dropLast = r.2.dropLast := by
  obtain ⟨s, ps, hs, ht, hx⟩ := h
  obtain ⟨s', ps', hs', ht', hx'⟩ := h'
  obtain ⟨s0, x, hs0, hx0, hpre0⟩ := decodeToken_prefix hs hs' hp
  exact components_cut ht ht' hx hx' hs0 hx0 hpre0 hlen hne

theorem flatten_const {α : Type} {l : List (List α)} {k : Nat} (h : ∀ x ∈ l, x.length = k) :
    l.flatten.length = l.length * k := by
  induction l with
  | nil => simp
  | cons x l ih =>
    rw [List.flatten_cons, List.length_append, h x (by simp), ih fun y hy => h y (by simp [hy]), List.length_cons,
      Nat.succ_mul]
    omega

/-- The rows of what is left of a file whose lines all have `k` components, if there are more than `k` lines and the
components can be divided among them. -/
theorem rows_left {lossy : Bool} {bs bs' : Bytes} {lines lines' : List Bytes} {rows rows' : List (Str × List F)} {k k' : Nat}
    (hl : IsLines bs lines) (hr : LinesHave lossy lines rows) (hl' : IsLines bs' lines') (hr' : LinesHave lossy lines' rows')
    (hp : bs' <+: bs) (hk : ∀ r ∈ rows, r.2.length = k) (hk0 : 0 < k) (hmany : k < rows'.length)
    (htotal : (rows'.map (·.2)).flatten.length = rows'.length * k') :
    k' = k ∧ rows'.map (·.1) = (rows.map (·.1)).take rows'.length ∧
      (rows'.map (·.2)).flatten.length = ((rows.map (·.2)).take rows'.length).flatten.length ∧
      (rows'.map (·.2)).flatten.dropLast = ((rows.map (·.2)).take rows'.length).flatten.dropLast := by
  have hne : lines' ≠ [] := by
    rintro rfl
    have := hr'.1
    simp at this
    omega
  obtain ⟨init, last, last', rest, rfl, rfl, hpre⟩ := hl.prefix_any hl' hp hne
  obtain ⟨ri, r, rr, rfl, h1, h2, -⟩ := linesHave_append.mp hr
  obtain ⟨ri', r', rr', rfl, h1', h2', h3'⟩ := linesHave_append.mp hr'
  rw [h1] at h1'
  cases h1'
  obtain rfl : rr' = [] := List.length_eq_zero_iff.mp (by simpa using h3'.1.symm)
  have hri : (ri.map (·.2)).flatten.length = ri.length * k := by
    rw [flatten_const (k := k)]
    · simp
    · intro x hx
      obtain ⟨y, hy, rfl⟩ := List.mem_map.mp hx
      exact hk y (by simp [hy])
  have hrk : r.2.length = k := hk r (by simp)
  have hle := lineHas_prefix_length h2 h2' hpre
  simp only [List.map_append, List.map_cons, List.map_nil, List.flatten_append, List.flatten_singleton,
    List.length_append, List.length_cons, List.length_nil, Nat.zero_add] at htotal hmany ⊢
  rw [hri] at htotal
  have hk' : k' = k ∧ r'.2.length = k := by
    rcases Nat.lt_trichotomy k' k with h | h | h
    · exfalso
      obtain ⟨c, rfl⟩ : ∃ c, k = k' + 1 + c := ⟨k - k' - 1, by omega⟩
      have : (ri.length + 1) * k' + ri.length ≤ ri.length * (k' + 1 + c) + k' := by
        rw [Nat.succ_mul, Nat.mul_add, Nat.mul_add]
        omega
      omega
    · subst h
      rw [Nat.succ_mul] at htotal
      exact ⟨rfl, by omega⟩
    · exfalso
      obtain ⟨c, rfl⟩ : ∃ c, k' = k + 1 + c := ⟨k' - k - 1, by omega⟩
      have : (ri.length + 1) * (k + 1 + c) ≥ ri.length * k + ri.length + k + 1 := by
        rw [Nat.succ_mul, Nat.mul_add, Nat.mul_add]
        omega
      omega
  obtain ⟨rfl, hk'⟩ := hk'
  obtain ⟨e1, e2⟩ := lineHas_prefix h2 h2' hpre (by omega) (by intro h0; rw [h0] at hrk; simp at hrk; omega)
  have t1 : (ri.map (·.1) ++ r.1 :: rr.map (·.1)).take (ri.length + 1) = ri.map (·.1) ++ [r.1] := by
    rw [List.take_append, List.take_of_length_le (by simp)]
    simp
  have t2 : (ri.map (·.2) ++ r.2 :: rr.map (·.2)).take (ri.length + 1) = ri.map (·.2) ++ [r.2] := by
    rw [List.take_append, List.take_of_length_le (by simp)]
    simp
  refine ⟨rfl, by rw [t1, e1], by rw [t2]; simp; omega, ?_⟩
  rw [t2, ← List.flatten_singleton (l := r'.2), ← List.flatten_append]
  exact flatten_dropLast (by intro h0; rw [h0] at hrk; simp at hrk; omega)
    (by intro h0; rw [h0] at hk'; simp at hk'; omega) e2

/-- What is read of a file whose lines all have `k` components. -/
theorem readTextRaw_rows {lossy : Bool} {d : Bytes} {pos k : Nat} {lines : List Bytes} {rows : List (Str × List F)}
    {e : Embeddings T SimpleVocab (NdArray F) F} (h : readTextRaw lossy d pos = .ok e)
    (hl : IsLines (d.drop pos) lines) (hr : LinesHave lossy lines rows) (hk : ∀ r ∈ rows, r.2.length = k) :
    (rows.map (·.1)).Nodup ∧ e.vocab.words = rows.map (·.1) ∧ e.storage.inner = ⟨k, rows.map (·.2)⟩ := by
  obtain ⟨rows0, k0, g1, g2, g3, g4, -, rfl⟩ := (c50_accepts none trivial _ _ _ _ hl _).mp h
  have : rows0 = rows := by
    have e1 := linesHave_iff.mpr hr
    rw [linesHave_iff.mpr g1] at e1
    exact Res.ok.inj e1
  subst this
  have hk' : ∀ x ∈ rows0.map (·.2), x.length = k := by
    intro x hx
    obtain ⟨y, hy, rfl⟩ := List.mem_map.mp hx
    exact hk y hy
  have hlen := flatten_const hk'
  rw [List.length_map, g4] at hlen
  have hpos : 0 < rows0.length := List.length_pos_iff.mpr g2
  obtain rfl : k0 = k := Nat.eq_of_mul_eq_mul_left hpos hlen
  refine ⟨g3, rfl, ?_⟩
  have hwf : (⟨k0, rows0.map fun r => r.2⟩ : Mat F).WF := hk'
  have := Mat.ofFlat_flatten hwf
  simpa [Mat.nrows] using this

/-- **C115** (text without a first line). All lines of a text file have `k` components, and of the beginning of the file
more than `k` lines are left, of which the last may be incomplete. Then the reader returns an error, or the first words and
vectors of the file, except that the last component of the last one may differ. It does not panic.

Missing: the case that `k` or fewer lines are left, for which this is false (`c115_false`). -/
theorem c115_cut_partial (lossy : Bool) (d : Bytes) (pos m k : Nat) (lines lines' : List Bytes) (rows : List (Str × List F))
    (e : Embeddings T SimpleVocab (NdArray F) F) (h : readTextRaw lossy d pos = .ok e)
    (hl : IsLines (d.drop pos) lines) (hr : LinesHave lossy lines rows) (hk : ∀ r ∈ rows, r.2.length = k) (hk0 : 0 < k)
    (hl' : IsLines ((d.take m).drop pos) lines') (hmany : k < lines'.length) :
    (∃ x, (readTextRaw lossy (d.take m) pos : Res (Embeddings T SimpleVocab (NdArray F) F)) = .err x) ∨
    ∃ e' : Embeddings T SimpleVocab (NdArray F) F, readTextRaw lossy (d.take m) pos = .ok e' ∧
      e'.metadata = none ∧ e'.norms = none ∧ SimpleVocab.new (e.vocab.words.take lines'.length) = .ok e'.vocab ∧
      SameUpToLast e'.storage.inner ⟨e.storage.inner.cols, e.storage.inner.rows.take lines'.length⟩ := by
  obtain ⟨hnd, hw, hst⟩ := readTextRaw_rows h hl hr hk
  have hp : (d.take m).drop pos <+: d.drop pos := by rw [List.drop_take]; exact List.take_prefix _ _
  cases hc : (readTextRaw lossy (d.take m) pos : Res (Embeddings T SimpleVocab (NdArray F) F)) with
  | err x => exact .inl ⟨x, rfl⟩
  | ok e' =>
    right
    obtain ⟨rows', k', g1, g2, g3, g4, -, rfl⟩ := (c50_accepts none trivial _ _ _ _ hl' _).mp hc
    have hlen : lines'.length = rows'.length := g1.1
    obtain ⟨rfl, a1, a2, a3⟩ := rows_left hl hr hl' g1 hp hk hk0 (by omega) g4
    refine ⟨_, rfl, rfl, rfl, ?_, ?_⟩
    · rw [hw, hlen, ← a1]
      exact SimpleVocab.new_eq_ok.mpr ⟨g3, rfl⟩
    · rw [hst, hlen]
      refine ⟨?_, ?_, ?_⟩
      · have := congrArg List.length a1
        simp at this
        simp [Mat.dim, Mat.nrows, Mat.ofFlat]
        omega
      · rw [flatten_ofFlat g4, a2]
      · rw [flatten_ofFlat g4, a3]
  | panic =>
    exfalso
    rcases (c50_panics none trivial _ _ _ _ hl').mp hc with ⟨rfl, -⟩ | ⟨rows', k', g1, g2, g4, -, g5⟩
    · simp at hmany
    · have hlen : lines'.length = rows'.length := g1.1
      obtain ⟨rfl, a1, a2, a3⟩ := rows_left hl hr hl' g1 hp hk hk0 (by omega) g4
      rw [a1] at g5
      exact g5 (hnd.sublist (List.take_sublist _ _))

/-- **C115** (cut at the end of a line). If the file is cut off behind some of its lines, with or without the line break,
then these lines are read completely. -/
theorem c115_line_end (lossy : Bool) (d : Bytes) (pos m k : Nat) (lines lines' : List Bytes) (rows : List (Str × List F))
    (e : Embeddings T SimpleVocab (NdArray F) F) (h : readTextRaw lossy d pos = .ok e)
    (hl : IsLines (d.drop pos) lines) (hr : LinesHave lossy lines rows) (hk : ∀ r ∈ rows, r.2.length = k)
    (hl' : IsLines ((d.take m).drop pos) lines') (hpre : lines' <+: lines) (hne : lines' ≠ []) :
    ∃ e' : Embeddings T SimpleVocab (NdArray F) F, readTextRaw lossy (d.take m) pos = .ok e' ∧
      e'.metadata = none ∧ e'.norms = none ∧ SimpleVocab.new (e.vocab.words.take lines'.length) = .ok e'.vocab ∧
      e'.storage.inner = ⟨e.storage.inner.cols, e.storage.inner.rows.take lines'.length⟩ := by
  obtain ⟨hnd, hw, hst⟩ := readTextRaw_rows h hl hr hk
  have hle := hpre.length_le
  have hrl := hr.1
  have hr' : LinesHave lossy lines' (rows.take lines'.length) := by
    refine ⟨by simp; omega, fun i l r h1 h2 => ?_⟩
    obtain ⟨t, rfl⟩ := hpre
    obtain ⟨hi, -⟩ := List.getElem?_eq_some_iff.mp h1
    exact hr.2 i l r (by rw [List.getElem?_append_left hi]; exact h1) (by rwa [List.getElem?_take_of_lt hi] at h2)
  have hk' : ∀ r ∈ rows.take lines'.length, r.2.length = k := fun r hr => hk r (List.mem_of_mem_take hr)
  have hk2 : ∀ x ∈ (rows.take lines'.length).map (·.2), x.length = k := by
    intro x hx
    obtain ⟨y, hy, rfl⟩ := List.mem_map.mp hx
    exact hk' y hy
  have hne' : rows.take lines'.length ≠ [] := by
    intro h0
    have h1 := hr'.1
    rw [h0] at h1
    exact hne (List.length_eq_zero_iff.mp (by simpa using h1))
  have hnd' : ((rows.take lines'.length).map (·.1)).Nodup := by
    rw [List.map_take]
    exact hnd.sublist (List.take_sublist _ _)
  have hok := (c50_accepts (T := T) none trivial lossy (d.take m) pos lines' hl' _).mpr
    ⟨_, k, hr', hne', hnd', by rw [flatten_const hk2]; simp, by simp, rfl⟩
  refine ⟨_, hok, rfl, rfl, ?_, ?_⟩
  · rw [hw, ← List.map_take]
    exact SimpleVocab.new_eq_ok.mpr ⟨hnd', rfl⟩
  · rw [hst, ← List.map_take]
    have hwf : (⟨k, (rows.take lines'.length).map fun r => r.2⟩ : Mat F).WF := hk2
    have := Mat.ofFlat_flatten hwf
    simpa [Mat.nrows] using this

end Text

/-! ## Witnesses and examples -/

attribute [local instance] exampleScalar exampleFloatText

/-- The words and vectors that the readers of text files without a first line return. -/
def exampleCutText (d : Bytes) : Res (List Str × List (List F32)) :=
  (readTextRaw false d 0 : Res (Embeddings Unit SimpleVocab (NdArray F32) F32)).map
    fun e => (e.vocab.words, e.storage.inner.rows)

/-- **C115** is false as stated: a cut within the word of the second line makes the reader panic or return other vectors
for the first word; a file without any bytes makes it panic. -/
theorem c115_false :
    (¬ ∀ (d : Bytes) (pos m k : Nat) (lines : List Bytes) (rows : List (Str × List F32))
      (e : Embeddings Unit SimpleVocab (NdArray F32) F32), readTextRaw false d pos = .ok e →
      IsLines (d.drop pos) lines → LinesHave false lines rows → (∀ r ∈ rows, r.2.length = k) → 0 < k →
      (∃ x, (readTextRaw false (d.take m) pos : Res (Embeddings Unit SimpleVocab (NdArray F32) F32)) = .err x) ∨
      ∃ (e' : Embeddings Unit SimpleVocab (NdArray F32) F32) (n : Nat), readTextRaw false (d.take m) pos = .ok e' ∧
        SimpleVocab.new (e.vocab.words.take n) = .ok e'.vocab ∧
        SameUpToLast e'.storage.inner ⟨e.storage.inner.cols, e.storage.inner.rows.take n⟩) ∧
    exampleCutText (ascii "a 1 2\nab 3 4\n") = .ok ([['a'], ['a', 'b']], [[1, 2], [3, 4]]) ∧
    exampleCutText ((ascii "a 1 2\nab 3 4\n").take 7) = .panic ∧
    exampleCutText ((ascii "a 1 2\nab 3 4\n").take 8) = .ok ([['a'], ['a', 'b']], [[1], [2]]) ∧
    exampleCutText ((ascii "a 1 2\nab 3 4\n").take 0) = .panic := by
  refine ⟨fun H => ?_, by decide +kernel, by decide +kernel, by decide +kernel, by decide +kernel⟩
  have hp : exampleCutText ((ascii "a 1 2\nab 3 4\n").take 7) = .panic := by decide +kernel
  have ho : (exampleCutText (ascii "a 1 2\nab 3 4\n")).map (fun _ => ()) = .ok () := by decide +kernel
  unfold exampleCutText at hp ho
  have hr : (readTextRaw false ((ascii "a 1 2\nab 3 4\n").take 7) 0 :
      Res (Embeddings Unit SimpleVocab (NdArray F32) F32)) = .panic := by
    cases hc : (readTextRaw false ((ascii "a 1 2\nab 3 4\n").take 7) 0 :
      Res (Embeddings Unit SimpleVocab (NdArray F32) F32)) with
    | ok e => rw [hc] at hp; cases hp
    | err x => rw [hc] at hp; cases hp
    | panic => rfl
  cases he : (readTextRaw false (ascii "a 1 2\nab 3 4\n") 0 :
      Res (Embeddings Unit SimpleVocab (NdArray F32) F32)) with
  | err x => rw [he] at ho; cases ho
  | panic => rw [he] at ho; cases ho
  | ok e =>
    rcases H (ascii "a 1 2\nab 3 4\n") 0 7 2 [ascii "a 1 2", ascii "ab 3 4"] [(['a'], [1, 2]), (['a', 'b'], [3, 4])] e he
      ⟨by decide, .inl (by decide +kernel)⟩ (linesHave_iff.mp (by decide +kernel)) (by decide) (by decide)
      with ⟨x, hx⟩ | ⟨e', n, hx, -⟩
    · rw [hr] at hx; cases hx
    · rw [hr] at hx; cases hx

/-- `c115_cut_partial` applied to a file of three lines with one component; two lines are left, the second of which is
incomplete. Nothing is noticed. -/
example (e : Embeddings Unit SimpleVocab (NdArray F32) F32)
    (h : readTextRaw true (ascii "a 1\nb 23\nc 4\n") 0 = .ok e) :=
  c115_cut_partial (T := Unit) true (ascii "a 1\nb 23\nc 4\n") 0 7 1 [ascii "a 1", ascii "b 23", ascii "c 4"]
    [ascii "a 1", ascii "b 2"] [(['a'], [1]), (['b'], [23]), (['c'], [4])] e h ⟨by decide, .inl (by decide +kernel)⟩
    (linesHave_iff.mp (by decide +kernel)) (by decide) (by decide)
    ⟨by decide, .inr ⟨[ascii "a 1"], ascii "b 2", rfl, by decide, by decide +kernel⟩⟩ (by decide)

/-- `c115_line_end` applied to the same file, cut behind the second line. -/
example (e : Embeddings Unit SimpleVocab (NdArray F32) F32)
    (h : readTextRaw false (ascii "a 1\nb 23\nc 4\n") 0 = .ok e) :=
  c115_line_end (T := Unit) false (ascii "a 1\nb 23\nc 4\n") 0 8 1 [ascii "a 1", ascii "b 23", ascii "c 4"]
    [ascii "a 1", ascii "b 23"] [(['a'], [1]), (['b'], [23]), (['c'], [4])] e h ⟨by decide, .inl (by decide +kernel)⟩
    (linesHave_iff.mp (by decide +kernel)) (by decide)
    ⟨by decide, .inr ⟨[ascii "a 1"], ascii "b 23", rfl, by decide, by decide +kernel⟩⟩ (by decide) (by decide)

/-- The file is read, and so are its beginnings, except where a number is missing. -/
example : exampleCutText (ascii "a 1\nb 23\nc 4\n") = .ok ([['a'], ['b'], ['c']], [[1], [23], [4]]) ∧
    exampleCutText ((ascii "a 1\nb 23\nc 4\n").take 7) = .ok ([['a'], ['b']], [[1], [2]]) ∧
    exampleCutText ((ascii "a 1\nb 23\nc 4\n").take 8) = .ok ([['a'], ['b']], [[1], [23]]) ∧
    exampleCutText ((ascii "a 1\nb 23\nc 4\n").take 6) = .err .shape ∧
    exampleCutText ((ascii "a 1\nb 23\nc 4\n").take 10) = .err .shape := by
  refine ⟨?_, ?_, ?_, ?_, ?_⟩ <;> decide +kernel

end FF
