import Verif.Model.MessagesConvert
import Verif.Props.MessageTextCompat
import Verif.Props.Explicit
import Verif.Props.Quantize
import Verif.Props.Position

/-!
# C113: what conversions and quantization say when they refuse
-/

namespace FF

open Res

/-! ## Nothing else fails -/

theorem noErr_ngrams (s : Str) (m M : Nat) : NoErr (ngrams s m M) := by
  by_cases h : 1 ≤ m ∧ m ≤ M
  · rw [ngrams_eq_specFrom s m M h.1 h.2]; exact noErr_ok _
  · rw [ngrams_panic s m M (by omega)]; exact noErr_panic

theorem noErr_withNgrams {I : Type} [Indexer I] {ix : I} (h : ∀ g, NoErr (Indexer.indexNgram ix g)) (s : Str) (m M : Nat) :
    NoErr (subwordIndicesWithNgrams ix s m M) := by
  unfold subwordIndicesWithNgrams
  exact noErr_bind (noErr_ngrams s m M) fun _ => noErr_mapM fun g => noErr_bind (h g) fun _ => noErr_ok _

theorem noErr_foldlM {α β : Type} {f : β → α → Res β} (h : ∀ b a, NoErr (f b a)) (l : List α) (b : β) :
    NoErr (l.foldlM f b) := by
  induction l generalizing b with
  | nil => exact noErr_ok _
  | cons a l ih =>
    rw [List.foldlM_cons]
    exact noErr_bind (h b a) fun b' => ih b'

theorem noErr_newWithIndices (l : List (Str × Nat)) : NoErr (ExplicitIndexer.newWithIndices l) := by
  unfold ExplicitIndexer.newWithIndices
  refine noErr_bind (noErr_foldlM (fun st p => ?_) _ _) fun _ => noErr_ok _
  unfold ExplicitIndexer.step
  obtain ⟨a, b, c⟩ := st
  simp only
  cases b.get p.1 with
  | some _ => exact noErr_panic
  | none => exact noErr_ok _

theorem noErr_explicitNew (ws : List Str) (m M : Nat) (ix : ExplicitIndexer) : NoErr (SubwordVocab.new ws m M ix) :=
  noErr_newWithBoundaries (fun _ => noErr_ok _) _ _ _ _ _ _

theorem noErr_explicitMapping (a b : Nat) (l : List (Nat × Nat)) : NoErr (Embeddings.explicitMapping a b l) := by
  unfold Embeddings.explicitMapping
  refine noErr_foldlM (fun m p => ?_) _ _
  by_cases h : a + p.2 < m.length
  · rw [if_pos h]; exact noErr_ok _
  · rw [if_neg h]; exact noErr_panic

theorem noErr_matSelect {α : Type} (m : Mat α) (is : List Nat) : NoErr (m.select is) := by
  unfold Mat.select
  first
    | exact noErr_map (noErr_mapM fun i => noErr_row m i)
    | exact noErr_bind (noErr_mapM fun i => noErr_row m i) fun _ => noErr_ok _

theorem noErr_selectNorms {F : Type} (ns : Option (List F)) (is : List Nat) : NoErr (selectNorms ns is) := by
  cases ns with
  | none => exact noErr_ok _
  | some ns => exact noErr_map (noErr_mapM fun i => noErr_unwrap _)

theorem noErr_cloneNdArray {F : Type} (a : NdArray F) (is : List Nat) : NoErr (CloneFromMapping.cloneFromMapping a is) :=
  noErr_map (noErr_matSelect _ _)

/-- Copying rows of a storage returns no error. -/
theorem noErr_cloneWrap [Scalar F32] (s : StorageWrap) (is : List Nat) : NoErr (CloneFromMapping.cloneFromMapping s is) := by
  cases s with
  | ndArray a => exact noErr_map (noErr_cloneNdArray a is)
  | quantized a =>
    exact noErr_map (noErr_bind (noErr_matSelect _ _) fun _ => noErr_bind (noErr_selectNorms _ _) fun _ => noErr_ok _)
  | mmapArray a =>
    refine noErr_map (noErr_map ?_)
    first
      | exact noErr_map (noErr_mapM fun i => noErr_mmapRow a i)
      | exact noErr_bind (noErr_mapM fun i => noErr_mmapRow a i) fun _ => noErr_ok _
  | mmapQuantized a =>
    exact noErr_map (noErr_bind (noErr_map (noErr_mapM fun i => noErr_code a i)) fun _ =>
      noErr_bind (noErr_selectNorms _ _) fun _ => noErr_ok _)

/-! ## The loops -/

namespace EConvert

theorem kinds_bind {α β : Type} {x : ERes α} {y : Res α} {f : α → ERes β} {g : α → Res β} (hx : x.kinds = y)
    (hf : ∀ a, (f a).kinds = g a) : (x.bind f).kinds = y >>= g := by
  subst hx
  cases x with
  | ok a => exact hf a
  | err e => rfl
  | panic => rfl

theorem kinds_loop {α β : Type} {f : β → α → ERes β} {g : β → α → Res β} (h : ∀ b a, (f b a).kinds = g b a) (l : List α) (b : β) :
    (loop f l b).kinds = l.foldlM g b := by
  induction l generalizing b with
  | nil => rfl
  | cons a l ih =>
    rw [List.foldlM_cons]
    exact kinds_bind (h b a) fun b' => ih b'

theorem loop_err {α β : Type} {f : β → α → ERes β} {x : Error} {l : List α} {b : β} (h : loop f l b = .err x) :
    ∃ a ∈ l, ∃ b', f b' a = .err x := by
  induction l generalizing b with
  | nil => cases h
  | cons a l ih =>
    unfold loop at h
    cases hf : f b a with
    | ok b' =>
      rw [hf] at h
      obtain ⟨a', h1, h2⟩ := ih h
      exact ⟨a', by simp [h1], h2⟩
    | err e => rw [hf] at h; cases h; exact ⟨a, by simp, b, hf⟩
    | panic => rw [hf] at h; cases h

theorem kinds_step (m : HMap Str Nat) (p : Str × List Nat) : (step m p).kinds = toExplicitStep m p := by
  unfold step toExplicitStep
  match p.2 with
  | [] => rfl
  | [_] => rfl
  | _ :: _ :: _ => rfl

theorem step_err {m : HMap Str Nat} {p : Str × List Nat} {x : Error} (h : step m p = .err x) : 2 ≤ p.2.length ∧
    x = .ngramConversion "Vocab maps n-gram to multiple indices, cannot be converted to explicit n-gram vocab." := by
  unfold step at h
  match hp : p.2 with
  | [] => rw [hp] at h; cases h
  | [_] => rw [hp] at h; cases h
  | _ :: _ :: _ => rw [hp] at h; cases h; exact ⟨by simp, rfl⟩

theorem quiet_bind_err {α β : Type} {r : Res α} (hr : NoErr r) {f : α → ERes β} {x : Error}
    (h : (ERes.quiet r).bind f = .err x) : ∃ a, r = .ok a ∧ f a = .err x := by
  cases r with
  | ok a => exact ⟨a, rfl, h⟩
  | err e => exact absurd rfl (hr e)
  | panic => cases h

theorem bind_quiet_err {α β : Type} {r : ERes α} {f : α → Res β} (hf : ∀ a, NoErr (f a)) {x : Error} :
    (r.bind fun a => ERes.quiet (f a)) = .err x ↔ r = .err x := by
  cases r with
  | ok a => exact ⟨fun h => absurd h (ERes.quiet_ne_err (hf a) x), fun h => by cases h⟩
  | err e => exact ⟨fun h => (by cases h; rfl), fun h => (by cases h; rfl)⟩
  | panic => exact ⟨fun h => (by cases h), fun h => (by cases h)⟩

theorem index_err {I : Type} [Indexer I] {v : SubwordVocab I} (hi : ∀ g, NoErr (Indexer.indexNgram v.indexer g)) {x : Error}
    (h : index v = .err x) :
    (∃ w ∈ v.words, ∃ l, subwordIndicesWithNgrams v.indexer (v.bow ++ w ++ v.eow) v.minN v.maxN = .ok l ∧
      ∃ p ∈ l, 2 ≤ p.2.length) ∧
    x = .ngramConversion "Vocab maps n-gram to multiple indices, cannot be converted to explicit n-gram vocab." := by
  obtain ⟨w, hw, m, hm⟩ := loop_err h
  obtain ⟨l, hl, hm⟩ := quiet_bind_err (noErr_withNgrams hi _ _ _) hm
  obtain ⟨p, hp, m', hs⟩ := loop_err hm
  obtain ⟨h1, h2⟩ := step_err hs
  exact ⟨⟨w, hw, l, hl, p, hp, h1⟩, h2⟩

theorem kinds_vocab {I : Type} [BucketIndexer I] {v : SubwordVocab I} (hi : ∀ g, NoErr (Indexer.indexNgram v.indexer g))
    (order : List (Str × Nat) → List (Str × Nat)) : (vocab order v).kinds = toExplicit order v := by
  unfold vocab toExplicit
  refine kinds_bind ?_ fun m => ?_
  · refine kinds_loop (fun m w => kinds_bind (ERes.kinds_quiet (noErr_withNgrams hi _ _ _)) fun l => ?_) _ _
    exact kinds_loop kinds_step l m
  · exact ERes.kinds_quiet (noErr_bind (noErr_newWithIndices _) fun r => noErr_bind (noErr_explicitNew _ _ _ _) fun _ => noErr_ok _)

theorem vocab_err {I : Type} [BucketIndexer I] {v : SubwordVocab I} {order : List (Str × Nat) → List (Str × Nat)} {x : Error} :
    vocab order v = .err x ↔ index v = .err x :=
  bind_quiet_err fun _ =>
    noErr_bind (noErr_newWithIndices _) fun _ => noErr_bind (noErr_explicitNew _ _ _ _) fun _ => noErr_ok _

section
variable {T I S S' F : Type} [BucketIndexer I] [Storage S F] [Storage S' F] [CloneFromMapping S S']

omit [Storage S F] in
theorem noErr_rest {ev : ExplicitSubwordVocab} {s : S} (hc : ∀ is, NoErr (CloneFromMapping.cloneFromMapping s is))
    (l : List (Nat × Nat)) (ns : Option (NdNorms F)) : NoErr (do
      let vl ← Vocab.vocabLen ev
      let mapping ← Embeddings.explicitMapping (Vocab.wordsLen ev) vl l
      let s ← CloneFromMapping.cloneFromMapping s mapping
      Embeddings.newWithMaybeNorms none ev s ns : Res (Embeddings T ExplicitSubwordVocab S' F)) :=
  noErr_bind (noErr_ok _) fun _ => noErr_bind (noErr_explicitMapping _ _ _) fun _ => noErr_bind (hc _) fun _ =>
    noErr_newWithMaybeNorms (fun _ => noErr_ok _) _ _ _ _

theorem kinds_embeddings {e : Embeddings T (SubwordVocab I) S F} (hi : ∀ g, NoErr (Indexer.indexNgram e.vocab.indexer g))
    (hc : ∀ is, NoErr (CloneFromMapping.cloneFromMapping e.storage is)) (order : List (Str × Nat) → List (Str × Nat))
    (order2 : List (Nat × Nat) → List (Nat × Nat)) :
    (embeddings order order2 e : ERes (Embeddings T ExplicitSubwordVocab S' F)).kinds = e.toExplicit order order2 := by
  unfold embeddings Embeddings.toExplicit
  exact kinds_bind (kinds_vocab hi order) fun r => ERes.kinds_quiet (noErr_rest hc _ _)

theorem embeddings_err {e : Embeddings T (SubwordVocab I) S F}
    (hc : ∀ is, NoErr (CloneFromMapping.cloneFromMapping e.storage is)) {order : List (Str × Nat) → List (Str × Nat)}
    {order2 : List (Nat × Nat) → List (Nat × Nat)} {x : Error} :
    (embeddings order order2 e : ERes (Embeddings T ExplicitSubwordVocab S' F)) = .err x ↔ index e.vocab = .err x :=
  (bind_quiet_err fun _ => noErr_rest hc _ _).trans vocab_err

end

theorem single_no_err {I : Type} [Indexer I] {v : SubwordVocab I} (hi : ∀ g, NoErr (Indexer.indexNgram v.indexer g))
    (h1 : ∀ g l, Indexer.indexNgram v.indexer g = .ok l → l.length ≤ 1) (x : Error) : index v ≠ .err x := by
  intro h
  obtain ⟨⟨w, _, l, hl, p, hp, h2⟩, _⟩ := index_err hi h
  unfold subwordIndicesWithNgrams at hl
  obtain ⟨gs, _, hl⟩ := bind_eq_ok.mp hl
  obtain ⟨g, _, hg⟩ := mapM_ok_mem hl hp
  obtain ⟨is, hgi, he⟩ := bind_eq_ok.mp hg
  cases he
  have := h1 g is hgi
  simp only at h2
  omega

end EConvert

theorem noErr_hash (ix : HashIndexer) (g : NGram) : NoErr (Indexer.indexNgram ix g) := noErr_ok _

theorem noErr_fastText (ix : FastTextIndexer) (g : NGram) : NoErr (Indexer.indexNgram ix g) := by
  show NoErr (ix.index g)
  unfold FastTextIndexer.index
  by_cases h : ix.buckets = 0
  · rw [if_pos h]; exact noErr_panic
  · rw [if_neg h]; exact noErr_ok _

/-! ## C113 -/

/-- **C113** (any indexer). The conversion of a vocabulary returns an error exactly if an n-gram of a word has more than one index,
and the error says so. `l w` are the n-grams of the word `w` with their indices. -/
theorem c113_vocab {I : Type} [BucketIndexer I] (v : SubwordVocab I) (l : Str → List (Str × List Nat))
    (hi : ∀ g, NoErr (Indexer.indexNgram v.indexer g))
    (hl : ∀ w ∈ v.words, subwordIndicesWithNgrams v.indexer (v.bow ++ w ++ v.eow) v.minN v.maxN = .ok (l w))
    (order : List (Str × Nat) → List (Str × Nat)) (x : Error) :
    EConvert.vocab order v = .err x ↔ (∃ w ∈ v.words, ∃ p ∈ l w, 2 ≤ p.2.length) ∧
      x = .ngramConversion "Vocab maps n-gram to multiple indices, cannot be converted to explicit n-gram vocab." := by
  constructor
  · intro h
    obtain ⟨⟨w, hw, l', hl', hp⟩, hx⟩ := EConvert.index_err hi (EConvert.vocab_err.mp h)
    rw [hl w hw] at hl'
    cases hl'
    exact ⟨⟨w, hw, hp⟩, hx⟩
  · rintro ⟨hm, rfl⟩
    have hk := EConvert.kinds_vocab hi order
    rw [c32_multiple v l hl hm order] at hk
    cases hv : EConvert.vocab order v with
    | ok r => rw [hv] at hk; cases hk
    | panic => rw [hv] at hk; cases hk
    | err e => rw [(EConvert.index_err hi (EConvert.vocab_err.mp hv)).2]

/-- **C113** (`try_to_explicit`). Without the messages, this is the conversion of the model. There is an error exactly for the
vocabularies that have no buckets, and it names the vocabulary. -/
theorem c113_try {T S S' F : Type} [Storage S F] [Storage S' F] [CloneFromMapping S S'] (e : Embeddings T VocabWrap S F)
    (hc : ∀ is, NoErr (CloneFromMapping.cloneFromMapping e.storage is)) (order : List (Str × Nat) → List (Str × Nat))
    (order2 : List (Nat × Nat) → List (Nat × Nat)) :
    (EConvert.wrapped order order2 e : ERes (Embeddings T ExplicitSubwordVocab S' F)).kinds = e.tryToExplicit order order2 ∧
    ∀ x : Error, (EConvert.wrapped order order2 e : ERes (Embeddings T ExplicitSubwordVocab S' F)) = .err x ↔
      (∃ v, e.vocab = .simple v ∧ x = .conversion "SimpleVocab" "ExplicitVocab") ∨
      (∃ v, e.vocab = .explicit v ∧ x = .conversion "ExplicitVocab" "ExplicitVocab") ∨
      ∃ v, e.vocab = .floret v ∧ x = .conversion "FloretSubwordVocab" "ExplicitVocab" := by
  unfold EConvert.wrapped Embeddings.tryToExplicit
  cases hv : e.vocab with
  | simple v => exact ⟨rfl, fun x => by simp [eq_comm]⟩
  | explicit v => exact ⟨rfl, fun x => by simp [eq_comm]⟩
  | floret v => exact ⟨rfl, fun x => by simp [eq_comm]⟩
  | bucket v =>
    refine ⟨EConvert.kinds_embeddings (noErr_hash _) hc _ _, fun x => ?_⟩
    simp only [reduceCtorEq, false_and, exists_false, or_false, iff_false]
    intro h
    exact EConvert.single_no_err (noErr_hash _) (fun g l h => by cases h; simp [HashIndexer.indexWith]) x
      ((EConvert.embeddings_err hc).mp h)
  | fastText v =>
    refine ⟨EConvert.kinds_embeddings (noErr_fastText _) hc _ _, fun x => ?_⟩
    simp only [reduceCtorEq, false_and, exists_false, or_false, iff_false]
    intro h
    refine EConvert.single_no_err (noErr_fastText _) (fun g l h => ?_) x ((EConvert.embeddings_err hc).mp h)
    have h : v.indexer.index g = .ok l := h
    unfold FastTextIndexer.index at h
    by_cases hb : v.indexer.buckets = 0
    · rw [if_pos hb] at h; cases h
    · rw [if_neg hb] at h; cases h; simp

/-- **C113** (text). What a user sees of these errors. -/
theorem c113_text (a : String) : (Error.conversion a "ExplicitVocab").text = "Can't convert " ++ a ++ " to ExplicitVocab" := by
  show "Can't convert " ++ a ++ " to " ++ "ExplicitVocab" = _
  rw [String.append_assoc]
  rfl

section
variable {S F : Type} [Scalar F] [Storage S F] [StorageView S F]

/-- **C113** (quantization). The number of bits is refused exactly if it is above the largest number of bits that is possible: at most
eight, and not more codes than vectors. The error carries this largest number. All other errors are those of the trainer. -/
theorem c113_quantize (t : PqTrainer F) (k bits it att : Nat) (normalize : Bool) (s : S) (hv : NoErr (StorageView.view s))
    (hq : ∀ q m, NoErr (t.quantizeBatch q m)) :
    (EConvert.quantizeStorage t k bits it att normalize s).kinds = quantizeStorage t k bits it att normalize s ∧
    (∀ max, EConvert.quantizeStorage t k bits it att normalize s = .err (.bits max) ↔
      max < bits ∧ max ≤ 8 ∧ (max = 0 ∨ 2 ^ max ≤ (Storage.shape s).1) ∧
      ∀ n, n ≤ 8 → 2 ^ n ≤ (Storage.shape s).1 → n ≤ max) ∧
    (EConvert.quantizeStorage t k bits it att normalize s = .err .trainer ↔
      bits ≤ 8 ∧ (bits = 0 ∨ 2 ^ bits ≤ (Storage.shape s).1) ∧
      ∃ m x, StorageView.view s = .ok m ∧ t.train k bits it att (quantizeInput normalize m).1 = .err x) := by
  have hb := c57_bound bits (Storage.shape s).1
  have hm := c57_bound (maxSubquantizerBits (Storage.shape s).1) (Storage.shape s).1
  have hn : ∀ n, n ≤ 8 → 2 ^ n ≤ (Storage.shape s).1 → n ≤ maxSubquantizerBits (Storage.shape s).1 := fun n h1 h2 =>
    (c57_bound n _).mpr ⟨h1, .inr h2⟩
  unfold EConvert.quantizeStorage quantizeStorage
  generalize maxSubquantizerBits (Storage.shape s).1 = mx at hb hm hn
  have hm := hm.mp (Nat.le_refl _)
  by_cases h : bits > mx
  · rw [if_pos h, if_pos h]
    refine ⟨rfl, fun max => ⟨fun he => ?_, fun ⟨_, h2, h3, h4⟩ => ?_⟩, ⟨fun he => (by cases he), fun ⟨h1, h2, _⟩ => ?_⟩⟩
    · cases he; exact ⟨h, hm.1, hm.2, hn⟩
    · have : max ≤ mx := by
        rcases h3 with rfl | h3
        · exact Nat.zero_le _
        · exact hn max h2 h3
      have : mx ≤ max := by
        rcases hm.2 with rfl | h5
        · exact Nat.zero_le _
        · exact h4 mx hm.1 h5
      rw [show mx = max by omega]
    · exact absurd (hb.mpr ⟨h1, h2⟩) (by omega)
  · rw [if_neg h, if_neg h]
    have hb := hb.mp (by omega)
    cases hvw : StorageView.view s with
    | err e => exact absurd hvw (hv e)
    | panic =>
      refine ⟨rfl, fun max => ⟨fun he => (by cases he), fun ⟨h1, h2, h3, h4⟩ => ?_⟩, ⟨fun he => (by cases he), ?_⟩⟩
      · rcases hb.2 with rfl | h5
        · omega
        · exact absurd (h4 bits hb.1 h5) (by omega)
      · rintro ⟨_, _, m, x, hx, _⟩; cases hx
    | ok m =>
      simp only [Res.ok_bind]
      have hno : ∀ max, ¬(max < bits ∧ max ≤ 8 ∧ (max = 0 ∨ 2 ^ max ≤ (Storage.shape s).1) ∧
          ∀ n, n ≤ 8 → 2 ^ n ≤ (Storage.shape s).1 → n ≤ max) := by
        rintro max ⟨h1, _, _, h4⟩
        rcases hb.2 with rfl | h5
        · omega
        · exact absurd (h4 bits hb.1 h5) (by omega)
      cases ht : t.train k bits it att (quantizeInput normalize m).1 with
      | panic =>
        refine ⟨rfl, fun max => ⟨fun he => (by cases he), fun he => absurd he (hno max)⟩, ⟨fun he => (by cases he), ?_⟩⟩
        rintro ⟨_, _, m', x, hm', hx⟩
        cases hm'
        rw [ht] at hx; cases hx
      | err x =>
        exact ⟨rfl, fun max => ⟨fun he => (by cases he), fun he => absurd he (hno max)⟩,
          ⟨fun _ => ⟨hb.1, hb.2, m, x, rfl, ht⟩, fun _ => rfl⟩⟩
      | ok q =>
        have hcase : ∀ x, (EConvert.QRes.training (asQuantizationError (.ok q) >>= fun q =>
            t.quantizeBatch q (quantizeInput normalize m).1 >>= fun codes =>
              pure (⟨q, codes, (quantizeInput normalize m).2⟩ : QuantizedArray F)) : EConvert.QRes _) ≠ .err x := by
          intro x hx
          cases hqb : t.quantizeBatch q (quantizeInput normalize m).1 with
          | err e => exact absurd hqb (hq _ _ e)
          | panic => simp [asQuantizationError, hqb, EConvert.QRes.training] at hx
          | ok c => simp [asQuantizationError, hqb, EConvert.QRes.training] at hx
        refine ⟨?_, fun max => ⟨fun he => absurd he (hcase _), fun he => absurd he (hno max)⟩, ⟨fun he => absurd he (hcase _), ?_⟩⟩
        · cases hqb : t.quantizeBatch q (quantizeInput normalize m).1 with
          | err e => exact absurd hqb (hq _ _ e)
          | panic => simp [asQuantizationError, hqb, EConvert.QRes.training, EConvert.QRes.kinds]
          | ok c => simp [asQuantizationError, hqb, EConvert.QRes.training, EConvert.QRes.kinds]
        · rintro ⟨_, _, m', x, hm', hx⟩
          cases hm'
          rw [ht] at hx; cases hx

end

/-! ## Examples -/

section
attribute [local instance] exampleScalar

/-- A matrix of three rows can be quantized with one bit, not with two. -/
example : (EConvert.quantizeStorage (firstRows F32) 1 2 0 0 false (⟨⟨1, [[1], [2], [3]]⟩⟩ : NdArray F32)) = .err (.bits 1) ∧
    (EConvert.quantizeStorage (firstRows F32) 0 1 0 0 false (⟨⟨1, [[1], [2], [3]]⟩⟩ : NdArray F32)) = .err .trainer ∧
    (∀ q m, NoErr ((firstRows F32).quantizeBatch q m)) :=
  ⟨by decide +kernel, by decide +kernel, fun _ _ => noErr_ok _⟩

/-- The hypothesis of `c113_try` holds for every storage. -/
example (s : StorageWrap) : ∀ is, NoErr (CloneFromMapping.cloneFromMapping s is) := noErr_cloneWrap s

attribute [local instance] exampleTwoIndices in
/-- An indexer with two indices for each n-gram meets the hypotheses of `c113_vocab`. -/
example : ∃ (v : SubwordVocab Unit) (l : Str → List (Str × List Nat)), (∀ g, NoErr (Indexer.indexNgram v.indexer g)) ∧
    (∀ w ∈ v.words, subwordIndicesWithNgrams v.indexer (v.bow ++ w ++ v.eow) v.minN v.maxN = .ok (l w)) ∧
    ∃ w ∈ v.words, ∃ p ∈ l w, 2 ≤ p.2.length :=
  ⟨⟨['<'], ['>'], (), indexMap [['a']], [['a']], 3, 3⟩, fun _ => [(['<', 'a', '>'], [0, 1])], fun _ => noErr_ok _,
    by intro w hw; cases List.mem_singleton.mp hw; decide +kernel, ['a'], by simp, _, List.mem_singleton.mpr rfl, by decide⟩

end

end FF
