import Verif.Model.Iterators
import Verif.Props.Accessors
import Verif.Props.Subword
import Verif.Props.Lookup

/-!
# C104: iterators, one call at a time

Every call of `next` gives the next element, whatever number of calls came before it; after the last element every call gives `None`.
Nothing behind the element that is asked for is computed.
-/

namespace FF

open Embeddings

section Generic
variable {α β σ : Type}

/-- What a lazy list does: call `n` computes the elements up to number `n`, and gives number `n`, or `None` if there is none. -/
def LazyList (next : σ → Res (Option β × σ)) (s : σ) (f : α → Res β) (l : List α) : Prop :=
  ∀ n, nthCall next n s = (do let ys ← (l.take (n + 1)).mapM f; return ys[n]?)

/-- A relation between states and remaining elements that every call respects. -/
theorem LazyList.of_sim {next : σ → Res (Option β × σ)} {f : α → Res β} (Sim : σ → List α → Prop)
    (hcons : ∀ s x l, Sim s (x :: l) → ∃ s', next s = (f x >>= fun y => .ok (some y, s')) ∧ Sim s' l)
    (hnil : ∀ s, Sim s [] → ∃ s', next s = .ok (none, s') ∧ Sim s' []) {s : σ} {l : List α} (h : Sim s l) :
    LazyList next s f l := by
  intro n
  induction n generalizing s l with
  | zero =>
    cases l with
    | nil =>
      obtain ⟨s', h1, _⟩ := hnil s h
      rw [nthCall, h1]; rfl
    | cons x l =>
      obtain ⟨s', h1, _⟩ := hcons s x l h
      rw [nthCall, h1]
      cases hx : f x <;> simp [hx]
  | succ n ih =>
    cases l with
    | nil =>
      obtain ⟨s', h1, h2⟩ := hnil s h
      rw [nthCall, h1, Res.ok_bind]
      dsimp only
      rw [ih h2]
      rfl
    | cons x l =>
      obtain ⟨s', h1, h2⟩ := hcons s x l h
      rw [nthCall, h1]
      cases hx : f x with
      | ok y =>
        simp only [Res.ok_bind, List.take_succ_cons, List.mapM_cons, hx, bind_assoc, pure_bind, List.getElem?_cons_succ]
        exact ih h2
      | err e => simp [hx]
      | panic => simp [hx]

/-- If nothing fails, call `n` gives element `n`. -/
theorem LazyList.all_ok {next : σ → Res (Option β × σ)} {s : σ} {f : α → Res β} {l : List α} (h : LazyList next s f l)
    {ys : List β} (hl : l.mapM f = .ok ys) (n : Nat) : nthCall next n s = .ok ys[n]? := by
  have key : ∀ (l : List α) (ys : List β) m, l.mapM f = .ok ys → (l.take m).mapM f = .ok (ys.take m) := by
    intro l
    induction l with
    | nil => intro ys m h; cases h; simp
    | cons x l ih =>
      intro ys m h
      cases m with
      | zero => simp
      | succ m =>
        rw [List.mapM_cons] at h
        obtain ⟨y, h1, h⟩ := Res.bind_eq_ok.mp h
        obtain ⟨ys', h2, h⟩ := Res.bind_eq_ok.mp h
        cases h
        simp only [List.take_succ_cons, List.mapM_cons, h1, ih ys' m h2, Res.ok_bind]
        rfl
  rw [h n, key l ys (n + 1) hl, Res.ok_bind]
  show Res.ok _ = Res.ok _
  rw [List.getElem?_take_of_lt (by omega)]

end Generic

/-! ## N-grams -/

/-- The iterator has no elements left. -/
def NGrams.Exhausted (it : NGrams) : Prop := it.ngramLen < it.minN ∧ it.charOffsets.tail.length < it.minN

theorem NGrams.Exhausted.next {it : NGrams} (h : it.Exhausted) : ∃ it', it.next = .ok (none, it') ∧ it'.Exhausted := by
  refine ⟨{ it with charOffsets := it.charOffsets.tail }, ?_, h.1, ?_⟩
  · unfold NGrams.next
    rw [if_pos h.1]
    dsimp only
    rw [if_pos h.2]
  · have := h.2
    simp only [List.length_tail] at this ⊢
    omega

theorem NGrams.emit_ne_none {it it' : NGrams} : it.emit ≠ .ok (none, it') := by
  intro h
  unfold NGrams.emit at h
  obtain ⟨_, _, h⟩ := Res.bind_eq_ok.mp h
  dsimp only at h
  split at h
  · obtain ⟨_, _, h⟩ := Res.bind_eq_ok.mp h
    split at h <;> cases h
  · obtain ⟨_, _, h⟩ := Res.bind_eq_ok.mp h
    obtain ⟨_, _, h⟩ := Res.bind_eq_ok.mp h
    split at h <;> cases h

theorem NGrams.next_none {it it' : NGrams} (h : it.next = .ok (none, it')) : it'.Exhausted := by
  unfold NGrams.next at h
  split at h
  · next h1 =>
    dsimp only at h
    split at h
    · next h2 =>
      cases h
      refine ⟨h1, ?_⟩
      simp only [List.length_tail] at h2 ⊢
      omega
    · exact absurd h NGrams.emit_ne_none
  · exact absurd h NGrams.emit_ne_none

/-- The elements that are left. -/
def NGrams.Left (it : NGrams) (l : List NGram) : Prop := (∃ fuel, it.collect fuel = .ok l) ∨ l = [] ∧ it.Exhausted

theorem NGrams.Left.cons {it : NGrams} {g : NGram} {l : List NGram} (h : it.Left (g :: l)) :
    ∃ it', it.next = .ok (some g, it') ∧ it'.Left l := by
  rcases h with ⟨fuel, h⟩ | ⟨h, _⟩
  · cases fuel with
    | zero => cases h
    | succ fuel =>
      rw [NGrams.collect] at h
      obtain ⟨⟨g', it'⟩, h1, h⟩ := Res.bind_eq_ok.mp h
      cases g' with
      | none => cases h
      | some g' =>
        obtain ⟨gs, h2, h⟩ := Res.bind_eq_ok.mp h
        cases h
        exact ⟨it', h1, .inl ⟨fuel, h2⟩⟩
  · cases h

theorem NGrams.Left.nil {it : NGrams} (h : it.Left []) : ∃ it', it.next = .ok (none, it') ∧ it'.Left [] := by
  rcases h with ⟨fuel, h⟩ | ⟨_, h⟩
  · cases fuel with
    | zero => cases h
    | succ fuel =>
      rw [NGrams.collect] at h
      obtain ⟨⟨g', it'⟩, h1, h⟩ := Res.bind_eq_ok.mp h
      cases g' with
      | none => exact ⟨it', h1, .inr ⟨rfl, NGrams.next_none h1⟩⟩
      | some g' =>
        obtain ⟨gs, _, h⟩ := Res.bind_eq_ok.mp h
        cases h
  · obtain ⟨it', h1, h2⟩ := h.next
    exact ⟨it', h1, .inr ⟨rfl, h2⟩⟩

theorem NGrams.new_left (s : Str) (minN maxN : Nat) (h1 : 1 ≤ minN) (h2 : minN ≤ maxN) :
    ∃ it gs, NGrams.new s minN maxN = .ok it ∧ it.Left gs ∧ gs.map (fun g => (g.inner, g.charLen)) = NGramsSpec s minN maxN := by
  obtain ⟨gs, hg, hs, _⟩ := c26_ngrams s minN maxN h1 h2
  unfold ngrams at hg
  obtain ⟨it, h3, h4⟩ := Res.bind_eq_ok.mp hg
  exact ⟨it, gs, h3, .inl ⟨_, h4⟩, hs⟩

/-- **C104** (n-grams). Call `n` of the n-gram iterator gives n-gram number `n` (in the order of `NGramsSpec`, with its length in
characters), and `None` for all `n` from the number of n-grams on. -/
theorem c104_ngrams (s : Str) (minN maxN : Nat) (h1 : 1 ≤ minN) (h2 : minN ≤ maxN) :
    ∃ it, NGrams.new s minN maxN = .ok it ∧
      ∀ n, (nthCall NGrams.next n it).map (·.map fun g => (g.inner, g.charLen)) = .ok (NGramsSpec s minN maxN)[n]? := by
  obtain ⟨it, gs, h3, h4, hs⟩ := NGrams.new_left s minN maxN h1 h2
  refine ⟨it, h3, fun n => ?_⟩
  have hl : LazyList NGrams.next it (fun g => .ok g) gs :=
    LazyList.of_sim NGrams.Left (fun _ _ _ h => h.cons) (fun _ h => h.nil) h4
  have hm : gs.mapM (fun g => (Res.ok g : Res NGram)) = .ok gs := by
    clear hl h4 hs h3
    induction gs with
    | nil => rfl
    | cons g gs ih => simp [List.mapM_cons, ih]
  rw [hl.all_ok hm n, ← hs, List.getElem?_map]
  rfl

/-- **C104** (subwords and indices). Call `n` of the subword iterator computes the indices of the subwords up to number `n` (the
whole string comes first if the indexer asks for it) and gives those of number `n`, or `None` from the number of subwords on. So a
subword whose indices cannot be computed matters from its own call on only. -/
theorem c104_indices {I : Type} [Indexer I] (ix : I) (s : Str) (minN maxN : Nat) (h1 : 1 ≤ minN) (h2 : minN ≤ maxN) :
    ∃ it, NGramsIndicesIter.new ix s minN maxN = .ok it ∧
      LazyList (NGramsIndicesIter.next ix) it
        (fun p : Str × Nat => do let is ← Indexer.indexNgram ix ⟨p.1, p.2⟩; return (p.1, is))
        ((match Indexer.scope ix with | .substrings => [] | .stringAndSubstrings => [(s, s.length)]) ++
          NGramsSpec s minN maxN) := by
  obtain ⟨it, gs, h3, h4, hs⟩ := NGrams.new_left s minN maxN h1 h2
  refine ⟨⟨match Indexer.scope ix with | .substrings => none | .stringAndSubstrings => some s, it⟩, ?_, ?_⟩
  · unfold NGramsIndicesIter.new
    rw [h3, Res.ok_bind]
    cases Indexer.scope ix <;> rfl
  refine LazyList.of_sim (fun (it : NGramsIndicesIter) (l : List (Str × Nat)) =>
    ∃ gs, it.ngrams.Left gs ∧
      l = (match it.string with | none => [] | some s => [(s, s.length)]) ++ gs.map (fun g => (g.inner, g.charLen))) ?_ ?_ ?_
  · rintro ⟨str, it⟩ x l ⟨gs, hl, he⟩
    cases str with
    | some s =>
      simp only [List.cons_append, List.nil_append, List.cons.injEq] at he
      obtain ⟨rfl, rfl⟩ := he
      refine ⟨⟨none, it⟩, ?_, gs, hl, rfl⟩
      show (Indexer.indexNgram ix ⟨s, s.length⟩ >>= _) = _
      cases Indexer.indexNgram ix ⟨s, s.length⟩ <;> rfl
    | none =>
      cases gs with
      | nil => simp at he
      | cons g gs =>
        simp only [List.nil_append, List.map_cons, List.cons.injEq] at he
        obtain ⟨rfl, rfl⟩ := he
        obtain ⟨it', h5, h6⟩ := NGrams.Left.cons hl
        refine ⟨⟨none, it'⟩, ?_, gs, h6, rfl⟩
        have h5' : it.next = .ok (some g, it') := h5
        unfold NGramsIndicesIter.next
        dsimp only
        rw [h5', Res.ok_bind]
        dsimp only
        cases Indexer.indexNgram ix g <;> rfl
  · rintro ⟨str, it⟩ ⟨gs, hl, he⟩
    cases str with
    | some s => simp at he
    | none =>
      cases gs with
      | cons g gs => simp at he
      | nil =>
        obtain ⟨it', h5, h6⟩ := NGrams.Left.nil hl
        refine ⟨⟨none, it'⟩, ?_, [], h6, rfl⟩
        have h5' : it.next = .ok (none, it') := h5
        unfold NGramsIndicesIter.next
        dsimp only
        rw [h5', Res.ok_bind]
        rfl
  · refine ⟨gs, h4, ?_⟩
    rw [hs]
    cases Indexer.scope ix <;> rfl

/-! ## Embeddings -/

section Embeddings
variable {T V S F : Type} [Scalar F] [Vocab V] [Storage S F]

omit [Scalar F] in
/-- **C104** (embeddings). Call `n` of the iterator over embeddings looks up row `n` of the storage and gives it with word number `n`;
from the number of words on it gives `None`. -/
theorem c104_iter (e : Embeddings T V S F) :
    LazyList e.nextItem e.newIter (fun p : Str × Nat => do let v ← Storage.embedding e.storage p.2; return (p.1, v))
      (Vocab.words e.vocab).zipIdx := by
  refine LazyList.of_sim (fun (it : Iter) l => l = it.words.zipIdx it.idx) ?_ ?_ rfl
  · rintro ⟨i, ws⟩ x l h
    cases ws with
    | nil => cases h
    | cons w ws =>
      simp only [List.zipIdx_cons, List.cons.injEq] at h
      obtain ⟨rfl, rfl⟩ := h
      refine ⟨⟨i + 1, ws⟩, ?_, rfl⟩
      unfold nextItem
      dsimp only
      cases Storage.embedding (F := F) e.storage i <;> rfl
  · rintro ⟨i, ws⟩ h
    cases ws with
    | nil => exact ⟨⟨i, []⟩, rfl, rfl⟩
    | cons w ws => simp [List.zipIdx_cons] at h

/-- **C104** (embeddings with norms). -/
theorem c104_iter_with_norms (e : Embeddings T V S F) :
    LazyList e.nextWithNorm e.newIter
      (fun p : Str × Nat => do let v ← Storage.embedding e.storage p.2; let n ← e.normAt p.2; return (p.1, v, n))
      (Vocab.words e.vocab).zipIdx := by
  refine LazyList.of_sim (fun (it : Iter) l => l = it.words.zipIdx it.idx) ?_ ?_ rfl
  · rintro ⟨i, ws⟩ x l h
    cases ws with
    | nil => cases h
    | cons w ws =>
      simp only [List.zipIdx_cons, List.cons.injEq] at h
      obtain ⟨rfl, rfl⟩ := h
      refine ⟨⟨i + 1, ws⟩, ?_, rfl⟩
      unfold nextWithNorm
      dsimp only
      cases Storage.embedding (F := F) e.storage i with
      | ok v => cases e.normAt i <;> rfl
      | err x => rfl
      | panic => rfl
  · rintro ⟨i, ws⟩ h
    cases ws with
    | nil => exact ⟨⟨i, []⟩, rfl, rfl⟩
    | cons w ws => simp [List.zipIdx_cons] at h

/-- **C104** (used up). If the iterators can be used up, call `n` gives element `n` of the whole, and then `None`. -/
theorem c104_used_up (e : Embeddings T V S F) :
    (∀ l, e.iter = .ok l → ∀ n, nthCall e.nextItem n e.newIter = .ok l[n]?) ∧
    ∀ l, e.iterWithNorms = .ok l → ∀ n, nthCall e.nextWithNorm n e.newIter = .ok l[n]? :=
  ⟨fun _ h => (c104_iter e).all_ok h, fun _ h => (c104_iter_with_norms e).all_ok h⟩

end Embeddings

/-! ## Examples -/

/-- The first calls for `abc` with lengths 1 to 2: there are five n-grams, the last two calls give `None`. -/
example : (List.range 7).map (fun n => (do nthCall NGrams.next n (← NGrams.new ['a', 'b', 'c'] 1 2) : Res _)) =
    ([some ⟨['a', 'b'], 2⟩, some ⟨['a'], 1⟩, some ⟨['b', 'c'], 2⟩, some ⟨['b'], 1⟩, some ⟨['c'], 1⟩, none, none] :
      List (Option NGram)).map .ok := by
  decide +kernel

/-- An indexer without buckets cannot compute an index: already the first call panics. With a string that is too short there is no
call that asks for one. -/
example : (do nthCall (NGramsIndicesIter.next (⟨0⟩ : FastTextIndexer)) 0 (← NGramsIndicesIter.new (⟨0⟩ : FastTextIndexer) ['a'] 1 2) :
      Res _) = .panic ∧
    (do nthCall (NGramsIndicesIter.next (⟨0⟩ : FastTextIndexer)) 3 (← NGramsIndicesIter.new (⟨0⟩ : FastTextIndexer) ['a'] 2 2) :
      Res _) = .ok none := by
  decide +kernel

/-- Two words, but one row: the first call succeeds, the second panics. -/
example :
    let e : Embeddings Unit SimpleVocab (NdArray F32) F32 := ⟨none, ⟨⟨1, [[5]]⟩⟩, ⟨indexMap [['a'], ['b']], [['a'], ['b']]⟩, none⟩
    nthCall e.nextItem 0 e.newIter = .ok (some (['a'], [5])) ∧ nthCall e.nextItem 1 e.newIter = .panic := by
  decide +kernel

attribute [local instance] exampleScalar in
/-- The hypothesis of `c104_used_up` can be met. -/
example :
    let e : Embeddings Unit SimpleVocab (NdArray F32) F32 := ⟨none, ⟨⟨1, [[5], [6]]⟩⟩, ⟨indexMap [['a'], ['b']], [['a'], ['b']]⟩, some ⟨[7, 8]⟩⟩
    e.iter = .ok [(['a'], [5]), (['b'], [6])] ∧
    e.iterWithNorms = .ok [(['a'], [5], 7), (['b'], [6], 8)] := by
  decide +kernel

end FF
