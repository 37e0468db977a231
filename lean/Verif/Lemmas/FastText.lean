import Verif.Model.FastText
import Verif.Lemmas.NoPanic
import Verif.Lemmas.Text
import Verif.Props.Vocab

/-!
# Lemmas about the fastText format
-/

namespace FF

open Rd

namespace Rd

/-- Started at position `off` on data that has exactly `bs` at that position, the reader returns the error `x`. -/
def FailsAt {α : Type} (p : Rd α) (off : Nat) (bs : Bytes) (x : Err) : Prop :=
  ∀ pre post : Bytes, pre.length = off → p (pre ++ (bs ++ post)) off = .err x

theorem FailsAt.fail {α : Type} (off : Nat) (bs : Bytes) (x : Err) : FailsAt (fail x : Rd α) off bs x :=
  fun _ _ _ => rfl

theorem FailsAt.lift {α : Type} (off : Nat) (bs : Bytes) (x : Err) : FailsAt (lift (.err x) : Rd α) off bs x :=
  fun _ _ _ => rfl

theorem FailsAt.left {α β : Type} {p : Rd α} {f : α → Rd β} {off : Nat} {bs : Bytes} {x : Err}
    (h : FailsAt p off bs x) : FailsAt (p >>= f) off bs x := by
  intro pre post hp
  rw [bind_apply, h pre post hp]; rfl

theorem FailsAt.right {α β : Type} {p : Rd α} {f : α → Rd β} {off : Nat} {b₁ b₂ : Bytes} {a : α} {x : Err}
    (h₁ : ReadsAt p off b₁ a) (h₂ : FailsAt (f a) (off + b₁.length) b₂ x) : FailsAt (p >>= f) off (b₁ ++ b₂) x := by
  intro pre post h
  have e₁ := h₁ pre (b₂ ++ post) h
  have e₂ := h₂ (pre ++ b₁) post (by simp [h])
  simp only [bind_apply, List.append_assoc] at *
  rw [e₁]; simp only [Res.ok_bind]
  rw [e₂]

/-- A step that consumes nothing. -/
theorem FailsAt.right0 {α β : Type} {p : Rd α} {f : α → Rd β} {off : Nat} {bs : Bytes} {a : α} {x : Err}
    (h₁ : ReadsAt p off [] a) (h₂ : FailsAt (f a) off bs x) : FailsAt (p >>= f) off bs x := by
  have := FailsAt.right (b₂ := bs) h₁ (by simpa using h₂)
  simpa using this

theorem FailsAt.append {α : Type} {p : Rd α} {off : Nat} {bs : Bytes} {x : Err} (h : FailsAt p off bs x)
    (more : Bytes) : FailsAt p off (bs ++ more) x := by
  intro pre post hp
  have := h pre (more ++ post) hp
  rwa [← List.append_assoc bs] at this

end Rd

/-! ## Matrix rows -/

section
variable {F : Type}

theorem Mat.row_eq_ok {m : Mat F} {i : Nat} {r : List F} : m.row i = .ok r ↔ m.rows[i]? = some r :=
  Res.unwrap_eq_ok

/-- Rows at valid indices. -/
theorem Mat.mapM_row {m : Mat F} {is : List Nat} (h : ∀ j ∈ is, j < m.rows.length) :
    ∃ subs, is.mapM m.row = .ok subs ∧ is.map (m.rows[·]?) = subs.map some := by
  obtain ⟨subs, hs⟩ := Res.mapM_ok_of (f := m.row) (l := is) fun j hj =>
    ⟨_, Mat.row_eq_ok.mpr (List.getElem?_eq_getElem (h j hj))⟩
  refine ⟨subs, hs, ?_⟩
  rw [Res.mapM_eq_ok_iff] at hs
  apply List.ext_getElem?
  intro i
  have := congrArg (·[i]?) hs
  simp only [List.getElem?_map] at this ⊢
  cases h1 : is[i]? with
  | none =>
    cases h2 : subs[i]? with
    | none => rfl
    | some r => simp [h1, h2] at this
  | some j =>
    cases h2 : subs[i]? with
    | none => simp [h1, h2] at this
    | some r =>
      simp only [h1, h2, Option.map_some, Option.some.injEq] at this ⊢
      exact Mat.row_eq_ok.mp this

variable [Scalar F] [ScalarNat F]

/-- What `add_subword_embeddings` does with the row of one word. -/
def AveragedRow (v : FastTextSubwordVocab) (rows : List (List F)) (w : Str) (row out : List F) : Prop :=
  (v.subwordIndices w = .ok none ∧ out = row) ∨
  ∃ is subs, v.subwordIndices w = .ok (some is) ∧ is.map (rows[·]?) = subs.map some ∧ out = averageRows row subs

/-- The loop over the words from position `k` on. `n` is the number of words: the subword rows come after it. -/
theorem addSubword_loop (v : FastTextSubwordVocab) (n : Nat) (orig : List (List F)) (ws : List Str) (k : Nat)
    (m : Mat F) (hlen : m.rows.length = orig.length)
    (hsub : ∀ w ∈ ws, ∃ o, v.subwordIndices w = .ok o ∧ ∀ is, o = some is → ∀ j ∈ is, n ≤ j ∧ j < orig.length)
    (hk : k + ws.length ≤ n) (hn : n ≤ orig.length) (hsame : ∀ i, k ≤ i → m.rows[i]? = orig[i]?) :
    ∃ rows', (ws.zipIdx k).foldlM (addSubwordStep v) m = .ok ⟨m.cols, rows'⟩ ∧ rows'.length = orig.length ∧
      (∀ i, i < k → rows'[i]? = m.rows[i]?) ∧ (∀ i, k + ws.length ≤ i → rows'[i]? = orig[i]?) ∧
      ∀ (i : Nat) w, ws[i]? = some w → ∃ row out, orig[k + i]? = some row ∧ rows'[k + i]? = some out ∧
        AveragedRow v orig w row out := by
  induction ws generalizing k m with
  | nil =>
    refine ⟨m.rows, rfl, hlen, fun _ _ => rfl, fun i hi => hsame i (by simpa using hi), by simp⟩
  | cons w ws ih =>
    simp only [List.length_cons] at hk
    obtain ⟨row, hrow⟩ : ∃ row, orig[k]? = some row := ⟨_, List.getElem?_eq_getElem (by omega)⟩
    have hmrow : m.rows[k]? = some row := by rw [hsame k (Nat.le_refl _), hrow]
    obtain ⟨o, ho, hin⟩ := hsub w (by simp)
    -- one step
    have hstep : ∃ out, addSubwordStep v m (w, k) = .ok ⟨m.cols, m.rows.set k out⟩ ∧ AveragedRow v orig w row out := by
      cases o with
      | none =>
        refine ⟨row, ?_, .inl ⟨ho, rfl⟩⟩
        simp only [addSubwordStep, ho, Res.ok_bind]
        have : m.rows.set k row = m.rows := by
          apply List.ext_getElem?
          intro i
          rw [List.getElem?_set]
          split
          · rename_i h; subst h
            split
            · exact hmrow.symm
            · rename_i h'; rw [List.getElem?_eq_none_iff.mpr (by omega)]
          · rfl
        rw [this]; rfl
      | some is =>
        have hlt : ∀ j ∈ is, j < m.rows.length := fun j hj => by rw [hlen]; exact (hin is rfl j hj).2
        obtain ⟨subs, hs1, hs2⟩ := Mat.mapM_row hlt
        refine ⟨averageRows row subs, ?_, .inr ⟨is, subs, ho, ?_, rfl⟩⟩
        · simp only [addSubwordStep, ho, Res.ok_bind]
          rw [Mat.row_eq_ok.mpr hmrow, Res.ok_bind, hs1, Res.ok_bind]; rfl
        · rw [← hs2]
          exact List.map_congr_left fun j hj => (hsame j (by have := (hin is rfl j hj).1; omega)).symm
    obtain ⟨out, hst, hav⟩ := hstep
    obtain ⟨rows', h1, h2, h3, h4, h5⟩ := ih (k + 1) ⟨m.cols, m.rows.set k out⟩ (by simpa using hlen)
      (fun x hx => hsub x (by simp [hx])) (by omega) (fun i hi => by
        simp only
        rw [List.getElem?_set_ne (by omega)]
        exact hsame i (by omega))
    refine ⟨rows', ?_, h2, ?_, ?_, ?_⟩
    · rw [List.zipIdx_cons, List.foldlM_cons, hst, Res.ok_bind]
      exact h1
    · intro i hi
      rw [h3 i (by omega)]
      simp only
      rw [List.getElem?_set_ne (by omega)]
    · intro i hi
      simp only [List.length_cons] at hi
      exact h4 i (by omega)
    · intro i x hx
      cases i with
      | zero =>
        simp only [List.getElem?_cons_zero, Option.some.injEq] at hx
        subst hx
        refine ⟨row, out, hrow, ?_, hav⟩
        rw [Nat.add_zero, h3 k (by omega)]
        simp only
        rw [List.getElem?_set_self (by omega)]
      | succ i =>
        rw [List.getElem?_cons_succ] at hx
        have := h5 i x hx
        rwa [show k + 1 + i = k + (i + 1) by omega] at this

/-- `add_subword_embeddings`: the rows of the words become averages, all other rows stay. -/
theorem addSubwordEmbeddings_eq (v : FastTextSubwordVocab) (m : Mat F)
    (hsub : ∀ w ∈ v.words, ∃ o, v.subwordIndices w = .ok o ∧
      ∀ is, o = some is → ∀ j ∈ is, v.words.length ≤ j ∧ j < m.rows.length)
    (hn : v.words.length ≤ m.rows.length) :
    ∃ rows', addSubwordEmbeddings v m = .ok ⟨m.cols, rows'⟩ ∧ rows'.length = m.rows.length ∧
      (∀ i, v.words.length ≤ i → rows'[i]? = m.rows[i]?) ∧
      ∀ (i : Nat) w, v.words[i]? = some w → ∃ row out, m.rows[i]? = some row ∧ rows'[i]? = some out ∧
        AveragedRow v m.rows w row out := by
  obtain ⟨rows', h1, h2, -, h4, h5⟩ := addSubword_loop v v.words.length m.rows v.words 0 m rfl hsub (by omega) hn
    fun _ _ => rfl
  refine ⟨rows', h1, h2, fun i hi => h4 i (by omega), fun i w hw => ?_⟩
  have := h5 i w hw
  rwa [Nat.zero_add] at this

end

/-! ## Subword indices of fastText vocabularies -/

/-- The n-grams of a word with the default markers can be looked up: the lengths are sensible, and there is a bucket
unless the word has no n-grams. -/
def FtSubwordsDefined (b m M : Nat) (w : Str) : Prop := 1 ≤ m ∧ m ≤ M ∧ (b ≠ 0 ∨ w.length + 2 < m)

theorem ft_vocab_fields {b : Nat} {ix : FastTextIndexer} (hix : FastTextIndexer.new b = .ok ix)
    {ws : List Str} {m M : Nat} {v : FastTextSubwordVocab} (hv : SubwordVocab.new ws m M ix = .ok v) :
    ws.Nodup ∧ v.words = ws ∧ Vocab.wordsLen v = ws.length ∧ Vocab.vocabLen v = .ok (ws.length + b) ∧
    v.indexer = ix ∧ v.minN = m ∧ v.maxN = M ∧ v.indices.len = ws.length ∧ ∀ w, (v.bracket w).length = w.length + 2 := by
  obtain ⟨hnd, ⟨ub, hub, -⟩, hv'⟩ := SubwordVocab.newWithBoundaries_eq_ok.mp hv
  have hl : (indexMap ws).len = ws.length := (indexMap_len_iff ws).mpr hnd
  obtain ⟨hle, hix'⟩ := FastTextIndexer.new_eq_ok.mp hix
  have hbk : ix.buckets.toNat = b := by
    rw [hix', UInt32.toNat_ofNat', Nat.mod_eq_of_lt (by omega)]
  refine ⟨hnd, by rw [hv'], by rw [hv']; exact hl, ?_, by rw [hv'], by rw [hv'], by rw [hv'], by rw [hv']; exact hl, ?_⟩
  · rw [hv']
    show (Res.ok ix.buckets.toNat >>= fun n => Res.ok ((indexMap ws).len + n)) = _
    rw [Res.ok_bind, hbk, hl]
  · intro w
    rw [hv']
    simp [SubwordVocab.bracket, SubwordVocab.defaultBow, SubwordVocab.defaultEow]

theorem ft_subwords {b : Nat} {ix : FastTextIndexer} (hix : FastTextIndexer.new b = .ok ix)
    {ws : List Str} {m M : Nat} {v : FastTextSubwordVocab} (hv : SubwordVocab.new ws m M ix = .ok v) (w : Str)
    (hd : FtSubwordsDefined b m M w) :
    ∃ o, v.subwordIndices w = .ok o ∧ ∀ is, o = some is → ∀ j ∈ is, ws.length ≤ j ∧ j < ws.length + b := by
  obtain ⟨hm, hM, hd⟩ := hd
  obtain ⟨-, -, -, -, e1, e2, e3, e4, e5⟩ := ft_vocab_fields hix hv
  unfold SubwordVocab.subwordIndices
  rw [e1, e2, e3, e4]
  by_cases hb : b = 0
  · have hlt : (v.bracket w).length < m := by rw [e5]; omega
    have hnil := (specFrom_eq_nil_iff hm hM).mpr hlt
    refine ⟨none, ?_, fun _ h => by cases h⟩
    have : subwordIndices ix (v.bracket w) m M = .ok [] := by
      unfold subwordIndices subwordIndicesWithNgrams
      rw [ngrams_eq_specFrom _ m M hm hM, hnil]
      rfl
    rw [this]; rfl
  · have hs := subwordIndices_eq (FastTextIndexer.answers hix hb) (v.bracket w) hm hM
    rw [hs, Res.ok_bind]
    refine ⟨_, rfl, fun is his j hj => ?_⟩
    split at his
    · cases his
    · cases his
      simp only [List.mem_map, List.mem_flatMap, List.mem_singleton] at hj
      obtain ⟨a, ⟨g, -, rfl⟩, rfl⟩ := hj
      have := Nat.mod_lt (fasttextHash g.inner).toNat (Nat.pos_of_ne_zero hb)
      omega

theorem ft_subwords_conv {b : Nat} {ix : FastTextIndexer} (hix : FastTextIndexer.new b = .ok ix)
    {ws : List Str} {m M : Nat} {v : FastTextSubwordVocab} (hv : SubwordVocab.new ws m M ix = .ok v) (w : Str)
    {o : Option (List Nat)} (h : v.subwordIndices w = .ok o) : FtSubwordsDefined b m M w := by
  obtain ⟨-, -, -, -, e1, e2, e3, e4, e5⟩ := ft_vocab_fields hix hv
  unfold SubwordVocab.subwordIndices at h
  rw [e1, e2, e3, e4] at h
  by_cases hmM : m = 0 ∨ M < m
  · rw [subwordIndices_panic _ _ hmM] at h; cases h
  · have hm : 1 ≤ m := by omega
    have hM : m ≤ M := by omega
    refine ⟨hm, hM, ?_⟩
    by_cases hb : b = 0
    · right
      by_cases hlt : (v.bracket w).length < m
      · rwa [e5] at hlt
      · exfalso
        have hne : specFrom m M (v.bracket w) ≠ [] := fun hn => hlt ((specFrom_eq_nil_iff hm hM).mp hn)
        obtain ⟨g, gs, hg⟩ := List.exists_cons_of_ne_nil hne
        obtain ⟨-, hix'⟩ := FastTextIndexer.new_eq_ok.mp hix
        have : subwordIndices ix (v.bracket w) m M = .panic := by
          unfold subwordIndices subwordIndicesWithNgrams
          rw [ngrams_eq_specFrom _ m M hm hM, hg, hix', hb]
          rfl
        rw [this] at h; cases h
    · exact .inl hb

theorem ft_subwords_noErr (v : FastTextSubwordVocab) (w : Str) :
    Res.NoErr (v.subwordIndices w) := by
  unfold SubwordVocab.subwordIndices
  refine Res.noErr_bind ?_ fun _ => Res.noErr_ok _
  unfold subwordIndices
  refine Res.noErr_bind ?_ fun _ => Res.noErr_ok _
  unfold subwordIndicesWithNgrams
  refine Res.noErr_bind ?_ fun _ => Res.noErr_mapM fun g => Res.noErr_bind ?_ fun _ => Res.noErr_ok _
  · by_cases hmM : v.minN = 0 ∨ v.maxN < v.minN
    · rw [ngrams_panic _ _ _ hmM]; exact Res.noErr_panic
    · rw [ngrams_eq_specFrom _ _ _ (by omega) (by omega)]; exact Res.noErr_ok _
  · show Res.NoErr (FastTextIndexer.index _ _)
    unfold FastTextIndexer.index
    split
    · exact Res.noErr_panic
    · exact Res.noErr_ok _

/-! ## From the parts of a file to embeddings -/

section
variable {T F : Type} [Scalar F] [ScalarNat F] [ConfigToml T]

theorem foldlM_ok_steps {α β : Type} {f : β → α → Res β} {l : List α} {b r : β} (h : l.foldlM f b = .ok r) :
    ∀ a ∈ l, ∃ b₁ b₂, f b₁ a = .ok b₂ := by
  induction l generalizing b with
  | nil => simp
  | cons x l ih =>
    rw [List.foldlM_cons] at h
    obtain ⟨b', h1, h2⟩ := Res.bind_eq_ok.mp h
    intro a ha
    rcases List.mem_cons.mp ha with rfl | ha
    · exact ⟨_, _, h1⟩
    · exact ih h2 a ha

theorem addSubwordEmbeddings_ok_subwords {v : FastTextSubwordVocab} {m m' : Mat F}
    (h : addSubwordEmbeddings v m = .ok m') : ∀ w ∈ v.words, ∃ o, v.subwordIndices w = .ok o := by
  intro w hw
  obtain ⟨i, hi⟩ := List.getElem?_of_mem hw
  have hmem : (w, i) ∈ v.words.zipIdx := by
    apply List.mem_of_getElem? (i := i)
    rw [List.getElem?_zipIdx, hi]; simp
  obtain ⟨m₁, m₂, hs⟩ := foldlM_ok_steps h _ hmem
  unfold addSubwordStep at hs
  obtain ⟨o, ho, -⟩ := Res.bind_eq_ok.mp hs
  exact ⟨o, ho⟩

theorem addSubwordStep_shape {v : FastTextSubwordVocab} {m m' : Mat F} {p : Str × Nat}
    (h : addSubwordStep v m p = .ok m') : m'.cols = m.cols ∧ m'.rows.length = m.rows.length := by
  unfold addSubwordStep at h
  obtain ⟨o, -, h⟩ := Res.bind_eq_ok.mp h
  cases o with
  | none => simp only [Res.pure_eq, Res.ok.injEq] at h; rw [← h]; exact ⟨rfl, rfl⟩
  | some is =>
    simp only at h
    obtain ⟨row, -, h⟩ := Res.bind_eq_ok.mp h
    obtain ⟨subs, -, h⟩ := Res.bind_eq_ok.mp h
    simp only [Res.pure_eq, Res.ok.injEq] at h
    rw [← h]; simp

theorem addSubword_shape {v : FastTextSubwordVocab} {m m' : Mat F} (h : addSubwordEmbeddings v m = .ok m') :
    m'.cols = m.cols ∧ m'.rows.length = m.rows.length := by
  unfold addSubwordEmbeddings at h
  generalize v.words.zipIdx = l at h
  induction l generalizing m with
  | nil => simp only [List.foldlM_nil, Res.pure_eq, Res.ok.injEq] at h; rw [h]; exact ⟨rfl, rfl⟩
  | cons p l ih =>
    rw [List.foldlM_cons] at h
    obtain ⟨m₁, h1, h2⟩ := Res.bind_eq_ok.mp h
    obtain ⟨a, b⟩ := ih h2
    obtain ⟨a', b'⟩ := addSubwordStep_shape h1
    exact ⟨a.trans a', b.trans b'⟩

/-- The row of a word and its norm after reading. -/
def FtWordRow (v : FastTextSubwordVocab) (rows : List (List F)) (i : Nat) (w : Str) (out : List F) (norm : F) : Prop :=
  ∃ row avg, rows[i]? = some row ∧ AveragedRow v rows w row avg ∧ out = (l2Normalize avg).1 ∧ norm = (l2Normalize avg).2

/-- Rows and norms after reading: subword rows as in the file, words as in `FtWordRow`. -/
structure FtRows (v : FastTextSubwordVocab) (ws : List Str) (rows rows' : List (List F)) (norms : List F) : Prop where
  rowsLen : rows'.length = rows.length
  normsLen : norms.length = ws.length
  subwords : ∀ i, ws.length ≤ i → rows'[i]? = rows[i]?
  words : ∀ (i : Nat) w, ws[i]? = some w → ∃ out norm, rows'[i]? = some out ∧ norms[i]? = some norm ∧
    FtWordRow v rows i w out norm

theorem map_some_inj {α : Type} {l l' : List α} (h : l.map some = l'.map some) : l = l' := by
  apply List.ext_getElem?
  intro i
  have := congrArg (·[i]?) h
  simp only [List.getElem?_map] at this
  cases h1 : l[i]? <;> cases h2 : l'[i]? <;> simp_all

theorem AveragedRow.unique {v : FastTextSubwordVocab} {rows : List (List F)} {w : Str} {row a b : List F}
    (ha : AveragedRow v rows w row a) (hb : AveragedRow v rows w row b) : a = b := by
  rcases ha with ⟨h1, h2⟩ | ⟨is, subs, h1, h2, h3⟩ <;> rcases hb with ⟨h1', h2'⟩ | ⟨is', subs', h1', h2', h3'⟩
  · rw [h2, h2']
  · rw [h1] at h1'; cases h1'
  · rw [h1] at h1'; cases h1'
  · rw [h1] at h1'
    cases h1'
    rw [h2] at h2'
    rw [h3, h3', map_some_inj h2']

theorem FtRows.unique {v : FastTextSubwordVocab} {ws : List Str} {rows r₁ r₂ : List (List F)} {n₁ n₂ : List F}
    (h₁ : FtRows v ws rows r₁ n₁) (h₂ : FtRows v ws rows r₂ n₂) : r₁ = r₂ ∧ n₁ = n₂ := by
  have key : ∀ i, i < ws.length → r₁[i]? = r₂[i]? ∧ n₁[i]? = n₂[i]? := by
    intro i hi
    obtain ⟨o1, x1, a1, b1, row1, avg1, c1, d1, e1, f1⟩ := h₁.words i _ (List.getElem?_eq_getElem hi)
    obtain ⟨o2, x2, a2, b2, row2, avg2, c2, d2, e2, f2⟩ := h₂.words i _ (List.getElem?_eq_getElem hi)
    rw [c1] at c2
    cases c2
    have := d1.unique d2
    subst this
    rw [a1, a2, b1, b2, e1, e2, f1, f2]
    exact ⟨rfl, rfl⟩
  constructor
  · apply List.ext_getElem?
    intro i
    by_cases hi : i < ws.length
    · exact (key i hi).1
    · rw [h₁.subwords i (by omega), h₂.subwords i (by omega)]
  · apply List.ext_getElem?
    intro i
    by_cases hi : i < ws.length
    · exact (key i hi).2
    · rw [List.getElem?_eq_none_iff.mpr (by have := h₁.normsLen; omega),
        List.getElem?_eq_none_iff.mpr (by have := h₂.normsLen; omega)]

omit [ScalarNat F] in
theorem normalizeFirst_eq {n : Nat} {m : Mat F} (h : n ≤ m.rows.length) :
    normalizeFirst n m = .ok (⟨m.cols, (m.rows.take n).map (fun r => (l2Normalize r).1) ++ m.rows.drop n⟩,
      (m.rows.take n).map fun r => (l2Normalize r).2) := by
  simp [normalizeFirst, Mat.nrows, h, Res.assert, l2NormalizeArray]

theorem finishFastText_build {c : FtConfig} {ix : FastTextIndexer} (hix : FastTextIndexer.new c.bucket = .ok ix)
    {ws : List Str} {v : FastTextSubwordVocab} (hv : SubwordVocab.new ws c.minN c.maxN ix = .ok v)
    {k : Nat} {rows : List (List F)} (hd : ∀ w ∈ ws, FtSubwordsDefined c.bucket c.minN c.maxN w)
    (hlen : rows.length = ws.length + c.bucket) (md : T) (hmd : ConfigToml.ofConfig c = some md) :
    ∃ rows' norms,
      (Embeddings.finishFastText c v ⟨⟨k, rows⟩⟩ : Res (Embeddings T FastTextSubwordVocab (NdArray F) F)) =
        .ok ⟨some ⟨md⟩, ⟨⟨k, rows'⟩⟩, v, some ⟨norms⟩⟩ ∧ FtRows v ws rows rows' norms := by
  obtain ⟨hnd, hw, hwl, hvl, -⟩ := ft_vocab_fields hix hv
  obtain ⟨r1, h1, h2, h3, h4⟩ := addSubwordEmbeddings_eq v ⟨k, rows⟩ (by
    rw [hw]
    intro w hww
    simp only
    rw [hlen]
    exact ft_subwords hix hv w (hd w hww)) (by rw [hw]; simp only; omega)
  rw [hw] at h3 h4
  simp only at h1 h2 h3 h4
  refine ⟨(r1.take ws.length).map (fun r => (l2Normalize r).1) ++ r1.drop ws.length,
    (r1.take ws.length).map (fun r => (l2Normalize r).2), ?_, ?_⟩
  · unfold Embeddings.finishFastText
    rw [h1]
    simp only [Res.ok_bind]
    rw [hwl, normalizeFirst_eq (by simp only; omega)]
    simp only [Res.ok_bind]
    rw [if_neg (by simp [Mat.nrows]; omega), hmd]
    simp only [Res.ofOption_some, Res.ok_bind]
    unfold Embeddings.new
    rw [hwl]
    have hl : ((r1.take ws.length).map (fun r => (l2Normalize r).2)).length = ws.length := by simp; omega
    simp only [hl, Res.assert, decide_true, if_true, Res.ok_bind]
    rw [Embeddings.newWithMaybeNorms_eq_ok]
    refine ⟨?_, rfl⟩
    rw [hvl]
    simp [shape, Storage.shape, Mat.dim, Mat.nrows]
    omega
  · refine ⟨by simp; omega, by simp; omega, fun i hi => ?_, fun i w hwi => ?_⟩
    · rw [List.getElem?_append_right (by simp; omega), List.getElem?_drop, ← h3 i hi]
      congr 1
      simp; omega
    · have hi : i < ws.length := by
        by_cases hlt : i < ws.length
        · exact hlt
        · rw [List.getElem?_eq_none_iff.mpr (by omega)] at hwi; cases hwi
      obtain ⟨row, out, ha, hb, hav⟩ := h4 i w hwi
      refine ⟨(l2Normalize out).1, (l2Normalize out).2, ?_, ?_, row, out, ha, hav, rfl, rfl⟩
      · rw [List.getElem?_append_left (by simp; omega)]
        simp [hi, hb]
      · simp [hi, hb]

/-- Shape of the outcome of the last part of the reader. -/
theorem finishFastText_eq_ok {c : FtConfig} {ix : FastTextIndexer} (hix : FastTextIndexer.new c.bucket = .ok ix)
    {ws : List Str} {v : FastTextSubwordVocab} (hv : SubwordVocab.new ws c.minN c.maxN ix = .ok v)
    {k : Nat} {rows : List (List F)} {e : Embeddings T FastTextSubwordVocab (NdArray F) F} :
    Embeddings.finishFastText c v ⟨⟨k, rows⟩⟩ = .ok e ↔
      (∀ w ∈ ws, FtSubwordsDefined c.bucket c.minN c.maxN w) ∧ rows.length = ws.length + c.bucket ∧
      ∃ md rows' norms, ConfigToml.ofConfig c = some md ∧ e = ⟨some ⟨md⟩, ⟨⟨k, rows'⟩⟩, v, some ⟨norms⟩⟩ ∧
        FtRows v ws rows rows' norms := by
  obtain ⟨hnd, hw, hwl, hvl, -⟩ := ft_vocab_fields hix hv
  -- existence
  have build : (∀ w ∈ ws, FtSubwordsDefined c.bucket c.minN c.maxN w) → rows.length = ws.length + c.bucket →
      ∀ md : T, ConfigToml.ofConfig c = some md → ∃ rows' norms,
        (Embeddings.finishFastText c v ⟨⟨k, rows⟩⟩ : Res (Embeddings T FastTextSubwordVocab (NdArray F) F)) =
          .ok ⟨some ⟨md⟩, ⟨⟨k, rows'⟩⟩, v, some ⟨norms⟩⟩ ∧ FtRows v ws rows rows' norms :=
    finishFastText_build hix hv
  constructor
  · intro h
    have h0 := h
    unfold Embeddings.finishFastText at h
    obtain ⟨m1, hm1, h⟩ := Res.bind_eq_ok.mp h
    obtain ⟨⟨m2, norms⟩, hm2, h⟩ := Res.bind_eq_ok.mp h
    simp only at h
    have hd : ∀ w ∈ ws, FtSubwordsDefined c.bucket c.minN c.maxN w := by
      intro w hww
      obtain ⟨o, ho⟩ := addSubwordEmbeddings_ok_subwords hm1 w (by rwa [hw])
      exact ft_subwords_conv hix hv w ho
    obtain ⟨hc1, hc2⟩ := addSubword_shape hm1
    have hm2' : m2.nrows = m1.nrows := by
      unfold normalizeFirst at hm2
      obtain ⟨u, hle, hm2⟩ := Res.bind_eq_ok.mp hm2
      simp only [Res.pure_eq, Res.ok.injEq, Prod.mk.injEq] at hm2
      rw [← hm2.1]
      have : Vocab.wordsLen v ≤ m1.nrows := by
        by_cases hle' : Vocab.wordsLen v ≤ m1.nrows
        · exact hle'
        · simp [Res.assert, hle'] at hle
      simp only [Mat.nrows, l2NormalizeArray, List.length_append, List.length_map, List.length_take, List.length_drop] at *
      omega
    have hlen : rows.length = ws.length + c.bucket := by
      by_cases hn : m2.nrows = Vocab.wordsLen v + c.bucket
      · rw [hwl] at hn
        simp only [Mat.nrows] at *
        omega
      · rw [if_pos (by simpa using hn)] at h; cases h
    refine ⟨hd, hlen, ?_⟩
    cases hmd : (ConfigToml.ofConfig c : Option T) with
    | none =>
      exfalso
      rw [hmd] at h
      split at h <;> cases h
    | some md =>
      obtain ⟨rows', norms', h1, h2⟩ := build hd hlen md hmd
      rw [h1] at h0
      cases h0
      exact ⟨md, rows', norms', rfl, rfl, h2⟩
  · rintro ⟨hd, hlen, md, rows', norms, hmd, rfl, hr⟩
    obtain ⟨r2, n2, h1, h2⟩ := build hd hlen md hmd
    obtain ⟨rfl, rfl⟩ := hr.unique h2
    exact h1

end

/-! ## When the last part panics -/

section
variable {T F : Type} [Scalar F] [ScalarNat F] [ConfigToml T]

/-- The step for the `p.2`-th word is possible with `n` rows. -/
def FtStepOk (v : FastTextSubwordVocab) (n : Nat) (p : Str × Nat) : Prop :=
  ∃ o, v.subwordIndices p.1 = .ok o ∧ ∀ is, o = some is → p.2 < n ∧ ∀ j ∈ is, j < n

theorem addSubwordStep_ok_iff {v : FastTextSubwordVocab} {m : Mat F} {p : Str × Nat} :
    (∃ m', addSubwordStep v m p = .ok m') ↔ FtStepOk v m.rows.length p := by
  constructor
  · rintro ⟨m', h⟩
    unfold addSubwordStep at h
    obtain ⟨o, ho, h⟩ := Res.bind_eq_ok.mp h
    refine ⟨o, ho, ?_⟩
    rintro is rfl
    simp only at h
    obtain ⟨row, h1, h⟩ := Res.bind_eq_ok.mp h
    obtain ⟨subs, h2, h⟩ := Res.bind_eq_ok.mp h
    have lt : ∀ {i : Nat} {r : List F}, m.row i = .ok r → i < m.rows.length := by
      intro i r hr
      have := Mat.row_eq_ok.mp hr
      by_cases hi : i < m.rows.length
      · exact hi
      · rw [List.getElem?_eq_none_iff.mpr (by omega)] at this; cases this
    refine ⟨lt h1, fun j hj => ?_⟩
    obtain ⟨i, hi⟩ := List.getElem?_of_mem hj
    have := congrArg (·[i]?) (Res.mapM_eq_ok_iff.mp h2)
    simp only [List.getElem?_map, hi, Option.map_some] at this
    cases hs : subs[i]? with
    | none => simp [hs] at this
    | some r => simp only [hs, Option.map_some, Option.some.injEq] at this; exact lt this
  · rintro ⟨o, ho, h⟩
    unfold addSubwordStep
    rw [ho]
    cases o with
    | none => exact ⟨m, rfl⟩
    | some is =>
      obtain ⟨h1, h2⟩ := h is rfl
      obtain ⟨subs, hs, -⟩ := Mat.mapM_row h2
      simp only [Res.ok_bind]
      rw [Mat.row_eq_ok.mpr (List.getElem?_eq_getElem h1), Res.ok_bind, hs]
      exact ⟨_, rfl⟩

theorem addSubword_ok_iff {v : FastTextSubwordVocab} {m : Mat F} :
    (∃ m', addSubwordEmbeddings v m = .ok m') ↔ ∀ p ∈ v.words.zipIdx, FtStepOk v m.rows.length p := by
  unfold addSubwordEmbeddings
  generalize v.words.zipIdx = l
  induction l generalizing m with
  | nil => simp
  | cons p l ih =>
    rw [List.foldlM_cons]
    constructor
    · rintro ⟨m', h⟩
      obtain ⟨m₁, h1, h2⟩ := Res.bind_eq_ok.mp h
      have h3 := ih.mp ⟨m', h2⟩
      rw [(addSubwordStep_shape h1).2] at h3
      intro x hx
      rcases List.mem_cons.mp hx with rfl | hx
      · exact addSubwordStep_ok_iff.mp ⟨_, h1⟩
      · exact h3 x hx
    · intro h
      obtain ⟨m₁, h1⟩ := addSubwordStep_ok_iff.mpr (h p (by simp))
      rw [h1, Res.ok_bind]
      refine ih.mpr ?_
      rw [(addSubwordStep_shape h1).2]
      exact fun x hx => h x (by simp [hx])

theorem addSubword_noErr (v : FastTextSubwordVocab) (m : Mat F) : Res.NoErr (addSubwordEmbeddings v m) := by
  unfold addSubwordEmbeddings
  generalize v.words.zipIdx = l
  induction l generalizing m with
  | nil => exact Res.noErr_ok _
  | cons p l ih =>
    rw [List.foldlM_cons]
    refine Res.noErr_bind ?_ ih
    unfold addSubwordStep
    refine Res.noErr_bind (ft_subwords_noErr v _) fun o => ?_
    cases o with
    | none => exact Res.noErr_ok _
    | some is =>
      exact Res.noErr_bind (Res.noErr_unwrap _) fun _ => Res.noErr_bind (Res.noErr_mapM fun _ => Res.noErr_unwrap _)
        fun _ => Res.noErr_ok _

/-- The last part of the reader panics exactly if the n-grams of some word cannot be looked up, or a row of a word
or of one of its n-grams is missing. -/
theorem finishFastText_eq_panic {c : FtConfig} {ix : FastTextIndexer} (hix : FastTextIndexer.new c.bucket = .ok ix)
    {ws : List Str} {v : FastTextSubwordVocab} (hv : SubwordVocab.new ws c.minN c.maxN ix = .ok v)
    {k : Nat} {rows : List (List F)} :
    (Embeddings.finishFastText c v ⟨⟨k, rows⟩⟩ : Res (Embeddings T FastTextSubwordVocab (NdArray F) F)) = .panic ↔
      (∃ w ∈ ws, ¬ FtSubwordsDefined c.bucket c.minN c.maxN w) ∨ rows.length < ws.length ∨
      ∃ w ∈ ws, ∃ is j, v.subwordIndices w = .ok (some is) ∧ j ∈ is ∧ rows.length ≤ j := by
  obtain ⟨hnd, hw, hwl, hvl, -⟩ := ft_vocab_fields hix hv
  by_cases hadd : ∃ m', addSubwordEmbeddings v ⟨k, rows⟩ = .ok m'
  · obtain ⟨m', hm'⟩ := hadd
    have hstep := addSubword_ok_iff.mp ⟨m', hm'⟩
    rw [hw] at hstep
    have hidx : ∀ w ∈ ws, ∃ i, (w, i) ∈ ws.zipIdx := by
      intro w hww
      obtain ⟨i, hi⟩ := List.getElem?_of_mem hww
      refine ⟨i, List.mem_of_getElem? (i := i) ?_⟩
      rw [List.getElem?_zipIdx, hi]; simp
    have h1 : ¬ ∃ w ∈ ws, ¬ FtSubwordsDefined c.bucket c.minN c.maxN w := by
      rintro ⟨w, hww, hn⟩
      obtain ⟨i, hi⟩ := hidx w hww
      obtain ⟨o, ho, -⟩ := hstep _ hi
      exact hn (ft_subwords_conv hix hv w ho)
    have h2 : ¬ ∃ w ∈ ws, ∃ is j, v.subwordIndices w = .ok (some is) ∧ j ∈ is ∧ rows.length ≤ j := by
      rintro ⟨w, hww, is, j, his, hj, hle⟩
      obtain ⟨i, hi⟩ := hidx w hww
      obtain ⟨o, ho, hin⟩ := hstep _ hi
      rw [his] at ho
      cases ho
      have := (hin is rfl).2 j hj
      simp only at this
      omega
    obtain ⟨hc, hl⟩ := addSubword_shape hm'
    simp only at hl
    unfold Embeddings.finishFastText
    rw [hm', hwl]
    simp only [Res.ok_bind]
    by_cases hle : ws.length ≤ rows.length
    · refine iff_of_false ?_ (by rintro (h | h | h); exact h1 h; omega; exact h2 h)
      rw [normalizeFirst_eq (by omega)]
      simp only [Res.ok_bind]
      split
      · simp
      · rename_i hsh
        cases hmd : (ConfigToml.ofConfig c : Option T) with
        | none => simp [Res.ofOption]
        | some md =>
          simp only [Res.ofOption_some, Res.ok_bind]
          unfold Embeddings.new
          rw [hwl]
          have hl2 : ((m'.rows.take ws.length).map (fun r => (l2Normalize r).2)).length = ws.length := by simp; omega
          simp only [hl2, Res.assert, decide_true, if_true, Res.ok_bind]
          have hsh' : (m'.rows.take ws.length).length + (m'.rows.drop ws.length).length = ws.length + c.bucket := by
            simpa [Mat.nrows] using hsh
          have key : ∀ (s : NdArray F) (n : Option (NdNorms F)), (shape s).1 = ws.length + c.bucket →
              Embeddings.newWithMaybeNorms (some (⟨md⟩ : Metadata T)) v s n = .ok ⟨some ⟨md⟩, s, v, n⟩ := by
            intro s n hs
            rw [Embeddings.newWithMaybeNorms_eq_ok, hvl, hs]
            exact ⟨rfl, rfl⟩
          rw [key _ _ (by simp [shape, Storage.shape, Mat.dim, Mat.nrows] at hsh' ⊢; omega)]
          simp
    · refine iff_of_true ?_ (.inr (.inl (by omega)))
      have : normalizeFirst ws.length m' = .panic := by
        unfold normalizeFirst
        have : ¬ ws.length ≤ m'.nrows := by unfold Mat.nrows; omega
        simp [this, Res.assert]
      rw [this]
      rfl
  · have hpan : addSubwordEmbeddings v (⟨k, rows⟩ : Mat F) = .panic := by
      cases h : addSubwordEmbeddings v (⟨k, rows⟩ : Mat F) with
      | ok m' => exact absurd ⟨m', h⟩ hadd
      | err x => exact absurd h (addSubword_noErr v _ x)
      | panic => rfl
    refine iff_of_true (by unfold Embeddings.finishFastText; rw [hpan]; rfl) ?_
    by_cases h1 : ∃ w ∈ ws, ¬ FtSubwordsDefined c.bucket c.minN c.maxN w
    · exact .inl h1
    right
    by_cases h2 : rows.length < ws.length
    · exact .inl h2
    right
    by_cases h3 : ∃ w ∈ ws, ∃ is j, v.subwordIndices w = .ok (some is) ∧ j ∈ is ∧ rows.length ≤ j
    · exact h3
    exfalso
    apply hadd
    rw [addSubword_ok_iff, hw]
    rintro ⟨w, i⟩ hp
    have hwi : ws[i]? = some w := by
      have := List.mk_mem_zipIdx_iff_getElem?.mp hp
      simpa using this
    have hww : w ∈ ws := List.mem_of_getElem? hwi
    have hdef : FtSubwordsDefined c.bucket c.minN c.maxN w := by
      by_cases hd : FtSubwordsDefined c.bucket c.minN c.maxN w
      · exact hd
      · exact absurd ⟨w, hww, hd⟩ h1
    obtain ⟨o, ho, -⟩ := ft_subwords hix hv w hdef
    refine ⟨o, ho, ?_⟩
    rintro is rfl
    refine ⟨?_, fun j hj => ?_⟩
    · have : i < ws.length := by
        by_cases hi : i < ws.length
        · exact hi
        · rw [List.getElem?_eq_none_iff.mpr (by omega)] at hwi; cases hwi
      simp only; omega
    · by_cases hj' : j < rows.length
      · exact hj'
      · exact absurd ⟨w, hww, is, j, ho, hj, by omega⟩ h3

end

end FF
