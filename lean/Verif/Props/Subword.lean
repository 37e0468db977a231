import Verif.Lemmas.Indexers

/-!
# Properties of n-gram enumeration and indexers (C26, C27, C28, C29, C30)
-/

namespace FF

/-! ## C26: n-gram enumeration -/

/-- Specification: for every start position `i` in order and every length `n` from long to short with
`minN ≤ n ≤ maxN` that fits into the string, the `n` characters from position `i`. -/
def NGramsSpec (s : Str) (minN maxN : Nat) : List (Str × Nat) :=
  (List.range s.length).flatMap fun i =>
    ((List.range (maxN + 1)).reverse.filter fun n => minN ≤ n ∧ i + n ≤ s.length).map
      fun n => ((s.drop i).take n, n)

/-- C26: enumeration yields exactly the substrings of the specification, in that order, each with its
number of characters, and does not panic. -/
theorem c26_ngrams (s : Str) (minN maxN : Nat) (h1 : 1 ≤ minN) (h2 : minN ≤ maxN) :
    ∃ gs, ngrams s minN maxN = .ok gs ∧ gs.map (fun g => (g.inner, g.charLen)) = NGramsSpec s minN maxN ∧
      ∀ g ∈ gs, g.inner.length = g.charLen := by
  refine ⟨_, ngrams_eq_specFrom s minN maxN h1 h2, ?_, ?_⟩
  · rw [specFrom_eq_positions h1]
    simp [NGramsSpec, List.map_flatMap, Function.comp_def]
  · intro g hg
    have := specFrom_charLen h1 hg
    rw [this]; rfl

/-- C26: a substring is enumerated as often as it occurs (multiplicity = number of start positions at
which it is found). -/
theorem c26_multiplicity (s g : Str) (minN maxN : Nat) (h1 : 1 ≤ minN) (h2 : minN ≤ maxN)
    (hg1 : minN ≤ g.length) (hg2 : g.length ≤ maxN) :
    ∃ gs, ngrams s minN maxN = .ok gs ∧
      (gs.map (·.inner)).count g = ((List.range s.length).filter fun i => g <+: s.drop i).length := by
  refine ⟨_, ngrams_eq_specFrom s minN maxN h1 h2, ?_⟩
  induction s with
  | nil => rfl
  | cons c s ih =>
    rw [specFrom, List.map_append, List.count_append, ih, List.length_cons,
      List.range_succ_eq_map (n := s.length), List.filter_cons]
    have e : ((List.range s.length).map Nat.succ).filter (fun i => decide (g <+: (c :: s).drop i)) =
        ((List.range s.length).filter fun i => decide (g <+: s.drop i)).map Nat.succ := by
      rw [List.filter_map]; rfl
    rw [e]
    have key : ((((down minN (min maxN (s.length + 1))).map
        (fun n => (⟨(c :: s).take n, n⟩ : NGram))).map (·.inner)).count g) =
        if g <+: c :: s then 1 else 0 := by
      rw [List.map_map, List.count_eq_countP, List.countP_map]
      have hd : ∀ lo hi, (∀ n, n ≤ hi → n ≤ s.length + 1) → 1 ≤ lo → lo ≤ g.length →
          (down lo hi).countP ((fun x => x == g) ∘ ((fun x : NGram => x.inner) ∘ fun n => ⟨(c :: s).take n, n⟩)) =
          if g <+: c :: s ∧ g.length ≤ hi then 1 else 0 := by
        intro lo hi hhi hlo hlg
        induction hi with
        | zero =>
          rw [down_eq_nil (by omega), if_neg (by omega)]; rfl
        | succ hi ihh =>
          by_cases hle : lo ≤ hi + 1
          · rw [down_cons hle hlo, List.countP_cons, Nat.add_sub_cancel,
              ihh (fun n hn => hhi n (by omega))]
            by_cases hp : g <+: c :: s
            · have hgt : (c :: s).take g.length = g := (List.prefix_iff_eq_take.mp hp).symm
              by_cases hlen : g.length = hi + 1
              · have : (c :: s).take (hi + 1) = g := by rw [← hlen]; exact hgt
                simp only [Function.comp_apply, this, beq_self_eq_true, if_true]
                rw [if_neg (by omega), if_pos ⟨hp, by omega⟩]
              · have : ¬ (c :: s).take (hi + 1) = g := by
                  intro he
                  have := congrArg List.length he
                  have hx := hhi (hi + 1) (by omega)
                  simp at this; omega
                have hb : ((c :: s).take (hi + 1) == g) = false := by simpa using this
                simp only [Function.comp_apply, hb, Bool.false_eq_true, if_false, Nat.add_zero]
                by_cases hl : g.length ≤ hi
                · rw [if_pos ⟨hp, hl⟩, if_pos ⟨hp, by omega⟩]
                · rw [if_neg (by omega), if_neg (by omega)]
            · have : ¬ (c :: s).take (hi + 1) = g := by
                rintro rfl; exact hp (List.take_prefix _ _)
              have hb : ((c :: s).take (hi + 1) == g) = false := by simpa using this
              simp only [Function.comp_apply, hb, Bool.false_eq_true, if_false, Nat.add_zero]
              rw [if_neg (fun h => hp h.1), if_neg (fun h => hp h.1)]
          · rw [down_eq_nil (by omega), if_neg (by omega)]; rfl
      rw [hd _ _ (fun n hn => by omega) h1 hg1]
      by_cases hp : g <+: c :: s
      · have := hp.length_le
        rw [if_pos ⟨hp, by simp at this; omega⟩, if_pos hp]
      · rw [if_neg (fun h => hp h.1), if_neg hp]
    rw [key]
    simp only [List.drop_zero, decide_eq_true_eq]
    split <;> simp <;> omega

/-- C26: invalid length ranges are refused by a panic. -/
theorem c26_refused (s : Str) (minN maxN : Nat) (h : minN = 0 ∨ maxN < minN) :
    ngrams s minN maxN = .panic := ngrams_panic s minN maxN h

/-- Hypotheses of `c26_ngrams`, `c26_multiplicity` (an n-gram that occurs twice) and `c26_refused`. -/
example := c26_ngrams ['a', 'é', 'b'] 2 3 (by decide) (by decide)
example := c26_multiplicity ['a', 'b', 'a', 'b'] ['a', 'b'] 2 3 (by decide) (by decide) (by decide) (by decide)
example := c26_refused ['a', 'é', 'b'] 3 2 (.inr (by decide))

example : (1 : Nat) ≤ 2 ∧ 2 ≤ 3 ∧
    NGramsSpec ['a', 'é', 'b'] 2 3 = [(['a', 'é', 'b'], 3), (['a', 'é'], 2), (['é', 'b'], 2)] := by
  decide

/-! ## C27: size hints -/

/-- States an n-gram iterator over `s` can be in. -/
inductive NGramsReach (s : Str) (minN maxN : Nat) : NGrams → Prop
  | init {it} : NGrams.new s minN maxN = .ok it → NGramsReach s minN maxN it
  | next {it it' o} : NGramsReach s minN maxN it → it.next = .ok (o, it') → NGramsReach s minN maxN it'

theorem NGramsReach.inv {s : Str} {m M : Nat} {it : NGrams} (h : NGramsReach s m M it) :
    1 ≤ m ∧ m ≤ M ∧ ∃ pre suf n, it = stateAt m M pre suf n ∧
      ((n ≤ suf.length ∧ n ≤ M) ∨ (n < m ∧ suf.length < m)) := by
  induction h with
  | @init it hnew =>
    unfold NGrams.new at hnew
    by_cases h0 : m = 0
    · simp [h0] at hnew
    · by_cases h1 : m ≤ M
      · simp [h0, h1] at hnew
        refine ⟨by omega, h1, [], s, min M s.length, ?_, .inl ⟨by omega, by omega⟩⟩
        rw [← hnew]; simp [stateAt]
      · simp [h0, h1] at hnew
  | @next it it' o hr hn ih =>
    obtain ⟨h1, h2, pre, suf, n, rfl, hc⟩ := ih
    refine ⟨h1, h2, ?_⟩
    by_cases hlt : n < m
    · cases suf with
      | nil =>
        rw [next_of_none hlt (by simp [charOffsetsFrom]; omega)] at hn
        simp only [Res.ok.injEq, Prod.mk.injEq] at hn
        refine ⟨pre, [], n, hn.2.symm, .inr ⟨hlt, by simp; omega⟩⟩
      | cons c suf =>
        by_cases hl : suf.length < m
        · rw [next_of_none hlt (by simpa [charOffsetsFrom] using hl)] at hn
          simp only [Res.ok.injEq, Prod.mk.injEq] at hn
          refine ⟨pre ++ [c], suf, n, ?_, .inr ⟨hlt, hl⟩⟩
          rw [← hn.2]; simp [stateAt, charOffsetsFrom]
        · rw [next_of_suffix hlt (by simpa [charOffsetsFrom] using hl)] at hn
          have := emit_stateAt m M (pre ++ [c]) suf (min M suf.length) (by omega) (by omega)
          simp only [stateAt, charOffsetsFrom, List.tail_cons, charOffsetsFrom_length,
            List.append_assoc, List.singleton_append, strLen_append, strLen_cons, strLen_nil,
            Nat.add_zero] at this hn
          rw [this] at hn
          simp only [Res.ok.injEq, Prod.mk.injEq] at hn
          refine ⟨pre ++ [c], suf, min M suf.length - 1, ?_, .inl ⟨by omega, by omega⟩⟩
          rw [← hn.2]; simp [stateAt]
    · rw [next_of_ge hlt] at hn
      have hn' : n ≤ suf.length ∧ n ≤ M := by
        rcases hc with hc | hc
        · exact hc
        · omega
      rw [emit_stateAt m M pre suf n (by omega) hn'.1] at hn
      simp only [Res.ok.injEq, Prod.mk.injEq] at hn
      exact ⟨pre, suf, n - 1, hn.2.symm, .inl ⟨by omega, by omega⟩⟩

/-- C27 (part): in every state of an n-gram iterator, the number of items it will still yield is at
most the size hint. Missing: the same number is also given as the lower bound, which is wrong
(`c27_lower_bound_false`). -/
theorem c27_ngrams_upper_bound_partial (s : Str) (minN maxN : Nat) (it : NGrams)
    (h : NGramsReach s minN maxN it) :
    ∃ gs, it.collect it.fuel = .ok gs ∧ gs.length ≤ it.sizeHint := by
  obtain ⟨h1, h2, pre, suf, n, rfl, hc⟩ := h.inv
  by_cases hn : n ≤ suf.length ∧ n ≤ maxN
  · refine ⟨_, collect_stateAt minN maxN h1 h2 _ pre suf n hn.1 (by simp [NGrams.fuel]), ?_⟩
    simp only [List.length_append, List.length_map, down_length _ _ h1, NGrams.sizeHint,
      charOffsetsFrom_length]
    have := specFrom_length_le (m := minN) (M := maxN) h1 suf.tail
    cases suf with
    | nil => simp [specFrom] at *; omega
    | cons c suf =>
      simp only [List.tail_cons, List.length_cons, Nat.mul_add, Nat.mul_one] at *
      omega
  · have hc : n < minN ∧ suf.length < minN := by
      rcases hc with hc | hc
      · exact absurd hc hn
      · exact hc
    refine ⟨[], ?_, by simp⟩
    rw [NGrams.fuel, NGrams.collect, next_of_none hc.1 (by simp; omega)]
    rfl

/-- A fresh iterator: hypothesis of `c27_ngrams_upper_bound_partial`. -/
example := c27_ngrams_upper_bound_partial ['a', 'b'] 1 2 _ (.init rfl)

example : ∃ it, NGramsReach ['a', 'b'] 1 2 it := ⟨_, .init rfl⟩

/-- C27 fails: the size hint of a fresh n-gram iterator can exceed the number of items, so it is not a
lower bound. Witness: n-grams of length 1 to 2 of "ab" (hint 4, items 3). -/
theorem c27_lower_bound_false :
    ¬ ∀ (s : Str) (minN maxN : Nat) (it : NGrams) (gs : List NGram), NGrams.new s minN maxN = .ok it →
      it.collect it.fuel = .ok gs → it.sizeHint ≤ gs.length := by
  intro h
  have := h ['a', 'b'] 1 2 _ _ rfl rfl
  revert this; decide

/-- C27 (part): for indexers over substrings, the subword-index iterator yields at most as many items
as its size hint. -/
theorem c27_indices_upper_bound_partial {I : Type} [Indexer I] (ix : I) (s : Str) (minN maxN : Nat)
    (it : NGrams) (l : List (Str × List Nat)) (hs : Indexer.scope ix = .substrings)
    (hit : NGrams.new s minN maxN = .ok it) (hl : subwordIndicesWithNgrams ix s minN maxN = .ok l) :
    l.length ≤ ngramsIndicesSizeHint it := by
  obtain ⟨gs, hgs, hle⟩ := c27_ngrams_upper_bound_partial s minN maxN it (.init hit)
  unfold subwordIndicesWithNgrams ngrams at hl
  rw [hit] at hl
  simp only [Res.ok_bind, hgs, hs, List.nil_append] at hl
  have : ∀ (r : List (Str × List Nat)), (gs.mapM fun g => (do
      let idx ← Indexer.indexNgram ix g
      return (g.inner, idx) : Res (Str × List Nat))) = .ok r → r.length = gs.length := by
    intro r
    clear hl hgs hle
    induction gs generalizing r with
    | nil => intro h; simp at h; simp [← h]
    | cons g gs ih =>
      intro h
      rw [List.mapM_cons] at h
      obtain ⟨x, _, h⟩ := Res.bind_eq_ok.mp h
      obtain ⟨xs, hxs, h⟩ := Res.bind_eq_ok.mp h
      simp only [Res.pure_eq, Res.ok.injEq] at h
      rw [← h]; simp [ih xs hxs]
  rw [this l hl]
  exact hle

/-- Three n-grams: hypotheses of `c27_indices_upper_bound_partial`. -/
example := c27_indices_upper_bound_partial (⟨2, 3⟩ : HashIndexer) ['a', 'b'] 1 2 _ _ rfl rfl rfl

example : Indexer.scope (⟨2, 3⟩ : HashIndexer) = .substrings ∧
    (∃ it, NGrams.new ['a', 'b'] 1 2 = .ok it) ∧
    ∃ l, subwordIndicesWithNgrams (⟨2, 3⟩ : HashIndexer) ['a', 'b'] 1 2 = .ok l ∧ l.length = 3 :=
  ⟨rfl, ⟨_, rfl⟩, _, rfl, rfl⟩

/-- C27 fails: for indexers that also index the whole string (floret), the hint of the subword-index
iterator is not an upper bound. Witness: the empty string (hint 0, one item). -/
theorem c27_indices_upper_bound_false :
    ¬ ∀ (ix : FloretIndexer) (s : Str) (minN maxN : Nat) (it : NGrams) (l : List (Str × List Nat)),
      NGrams.new s minN maxN = .ok it → subwordIndicesWithNgrams ix s minN maxN = .ok l →
      l.length ≤ ngramsIndicesSizeHint it := by
  intro h
  have hix : FloretIndexer.new 10 1 0 = .ok ⟨10, 0, 1⟩ := rfl
  have := h ⟨10, 0, 1⟩ [] 1 1 _ _ rfl
    (subwordIndicesWithNgrams_eq (FloretIndexer.answers hix) [] (Nat.le_refl 1) (Nat.le_refl 1))
  simp [indexed, Indexer.scope, ngramsIndicesSizeHint, NGrams.sizeHint, charOffsetsFrom] at this

/-! ## C28: bucket hash indexer -/

/-- C28: an indexer with exponent `e` maps every n-gram to exactly one index, its hash modulo `2^e`,
hence below `2^e`; for whatever hash function. -/
theorem c28_index (hash : Bytes → UInt64) (e : Nat) (ix : HashIndexer) (h : HashIndexer.new e = .ok ix)
    (g : NGram) :
    ix.indexWith hash g = [(hash g.hashBytes).toNat % 2 ^ e] ∧ (hash g.hashBytes).toNat % 2 ^ e < 2 ^ e := by
  refine ⟨?_, Nat.mod_lt _ (Nat.two_pow_pos e)⟩
  simp [HashIndexer.indexWith, and_mask h]

/-- C28: the constructor accepts exactly the exponents 0 to 64. -/
theorem c28_accepts (e : Nat) : (∃ ix, HashIndexer.new e = .ok ix) ↔ e ≤ 64 := by
  constructor
  · rintro ⟨ix, h⟩; exact (mask_toNat h).2.2
  · intro h; unfold HashIndexer.new; simp [Res.assert, h]

/-- C28: two indexers are equal exactly when they have the same number of buckets. -/
theorem c28_eq (e e' : Nat) (ix ix' : HashIndexer) (h : HashIndexer.new e = .ok ix)
    (h' : HashIndexer.new e' = .ok ix') : ix.eq ix' = true ↔ 2 ^ e = 2 ^ e' := by
  have h1 := (mask_toNat h).2.1
  have h2 := (mask_toNat h').2.1
  have p1 := Nat.two_pow_pos e
  have p2 := Nat.two_pow_pos e'
  simp only [HashIndexer.eq, beq_iff_eq]
  rw [← UInt64.toNat_inj, h1, h2]
  omega

/-- C28 (part): `upper_bound` is `2^e` for exponents below 64. Missing: exponent 64, which the
constructor accepts (`c28_upper_bound_64_false`). -/
theorem c28_upper_bound_partial (e : Nat) (ix : HashIndexer) (h : HashIndexer.new e = .ok ix)
    (he : e < 64) : Indexer.upperBound ix = .ok (2 ^ e) ∧ ix.upperBoundWrapping = 2 ^ e := by
  have hb := (mask_toNat h).1
  have : 2 ^ e ≤ 2 ^ 63 := Nat.pow_le_pow_right (by omega) (by omega)
  simp only [Indexer.upperBound, HashIndexer.upperBound, HashIndexer.upperBoundWrapping, hb]
  constructor
  · rw [if_pos (by unfold usizeMax; omega)]
  · exact Nat.mod_eq_of_lt (by omega)

/-- Hypotheses of `c28_index`, `c28_eq` and `c28_upper_bound_partial`. -/
example := c28_index fnv1a64 21 _ rfl (NGram.ofStr ['a', 'é'])
example := c28_eq 21 22 _ _ rfl rfl
example := c28_upper_bound_partial 21 _ rfl (by decide)

example : ∃ ix, HashIndexer.new 21 = .ok ix ∧ (21 : Nat) < 64 := ⟨_, rfl, by decide⟩

/-- C28 fails for exponent 64: the constructor accepts it, `upper_bound` overflows (a panic with
overflow checks, 0 without). -/
theorem c28_upper_bound_64_false :
    ¬ ∀ (e : Nat) (ix : HashIndexer), HashIndexer.new e = .ok ix → Indexer.upperBound ix = .ok (2 ^ e) := by
  intro h
  have := h 64 ⟨64, ~~~0⟩ rfl
  revert this; decide +kernel

/-- Companion to `c28_upper_bound_64_false`: in builds without overflow checks the result is 0. -/
theorem c28_upper_bound_64_wrapping : ∃ ix, HashIndexer.new 64 = .ok ix ∧ ix.upperBoundWrapping = 0 :=
  ⟨⟨64, ~~~0⟩, rfl, by decide +kernel⟩

/-! ## C29: fastText and floret indexers -/

/-- C29 (part): a fastText indexer with at least one bucket maps every n-gram to exactly one index
below the number of buckets, without panicking. Missing: zero buckets, which the constructor accepts
(`c29_fasttext_zero_buckets_false`). -/
theorem c29_fasttext_partial (b : Nat) (ix : FastTextIndexer) (h : FastTextIndexer.new b = .ok ix)
    (hb : b ≠ 0) (g : NGram) : ∃ i, Indexer.indexNgram ix g = .ok [i] ∧ i < b :=
  ⟨_, FastTextIndexer.answers h hb g, Nat.mod_lt _ (by omega)⟩

/-- Hypotheses of `c29_fasttext_partial`. -/
example := c29_fasttext_partial 2000000 _ rfl (by decide) (NGram.ofStr ['a', 'é'])

example : ∃ ix, FastTextIndexer.new 2000000 = .ok ix := ⟨_, rfl⟩

/-- C29: the constructor accepts exactly bucket counts up to `i32::MAX`. -/
theorem c29_fasttext_accepts (b : Nat) : (∃ ix, FastTextIndexer.new b = .ok ix) ↔ b ≤ 2 ^ 31 - 1 := by
  constructor
  · rintro ⟨ix, h⟩; exact (FastTextIndexer.new_eq_ok.mp h).1
  · intro h; exact ⟨_, FastTextIndexer.new_eq_ok.mpr ⟨h, rfl⟩⟩

/-- C29 fails for zero buckets: the constructor accepts them and every lookup panics. -/
theorem c29_fasttext_zero_buckets_false :
    ¬ ∀ (b : Nat) (ix : FastTextIndexer), FastTextIndexer.new b = .ok ix →
      ∀ g, Indexer.indexNgram ix g ≠ .panic := by
  intro h
  exact h 0 ⟨0⟩ rfl ⟨['a'], 1⟩ rfl

/-- C29: a floret indexer accepted by the constructor maps every n-gram to exactly `n_hashes` indices,
each below `n_buckets`, and never panics. -/
theorem c29_floret (nb nh : Nat) (seed : UInt32) (ix : FloretIndexer)
    (h : FloretIndexer.new nb nh seed = .ok ix) (g : NGram) :
    ∃ l, Indexer.indexNgram ix g = .ok l ∧ l.length = nh ∧ ∀ i ∈ l, i < nb := by
  obtain ⟨hh, hb, _⟩ := FloretIndexer.new_eq_ok.mp h
  refine ⟨_, FloretIndexer.answers h g, ?_, ?_⟩
  · simp [hashArray_length]; omega
  · intro i hi
    obtain ⟨x, _, rfl⟩ := List.mem_map.mp hi
    exact Nat.mod_lt _ (by omega)

/-- Hypothesis of `c29_floret`. -/
example := c29_floret 50000 2 2166136261 _ rfl (NGram.ofStr ['a', 'é'])

/-- C29: the floret constructor accepts exactly 1 to 4 hashes and a positive number of buckets. -/
theorem c29_floret_accepts (nb nh : Nat) (seed : UInt32) :
    (∃ ix, FloretIndexer.new nb nh seed = .ok ix) ↔ (1 ≤ nh ∧ nh ≤ 4) ∧ 0 < nb := by
  constructor
  · rintro ⟨ix, h⟩
    obtain ⟨hh, hb, _⟩ := FloretIndexer.new_eq_ok.mp h
    exact ⟨hh, by omega⟩
  · rintro ⟨hh, hb⟩
    exact ⟨_, FloretIndexer.new_eq_ok.mpr ⟨hh, by omega, rfl⟩⟩

example : ∃ ix, FloretIndexer.new 50000 2 2166136261 = .ok ix := ⟨_, rfl⟩

/-! ## C30: explicit indexer renumbering -/

/-- C30: construction succeeds exactly for lists without duplicate n-grams, and panics otherwise. -/
theorem c30_accepts (t : List (Str × Nat)) :
    ((t.map (·.1)).Nodup → ∃ r, ExplicitIndexer.newWithIndices t = .ok r) ∧
    (¬ (t.map (·.1)).Nodup → ExplicitIndexer.newWithIndices t = .panic) := by
  rw [newWithIndices_eq]
  constructor
  · intro h; rw [if_pos h]; exact ⟨_, rfl⟩
  · intro h; rw [if_neg h]

theorem o2nFrom_ge {m : HMap Nat Nat} (l : List Nat) {i j : Nat} (hi : i ∉ m.keys)
    (h : (o2nFrom m l).get i = some j) : m.len ≤ j := by
  induction l generalizing m with
  | nil =>
    have : m.get i = some j := h
    rw [HMap.get_eq_none_iff.mpr hi] at this; simp at this
  | cons k l ih =>
    have h' : (o2nFrom (o2nStep m k) l).get i = some j := h
    by_cases hk : k = i
    · subst hk
      have hg := HMap.get_eq_none_iff.mpr hi
      have h0 : (o2nStep m k).get k = some m.len := by simp [o2nStep, hg, HMap.get_insert]
      rw [o2nFrom_get h0 l] at h'
      simp at h'; omega
    · have := ih (m := o2nStep m k) (by
        rw [o2nStep_mem_keys]; rintro (h | h)
        · exact hk h.symm
        · exact hi h) h'
      have hlen : m.len ≤ (o2nStep m k).len := by
        unfold o2nStep
        cases m.get k with
        | some x => exact Nat.le_refl _
        | none =>
          show m.len ≤ (m.insert k m.len).len
          rw [HMap.len_insert]; split <;> omega
      omega

/-- C30: the whole specification of the renumbering. -/
theorem c30_renumbering (t : List (Str × Nat)) (ix : ExplicitIndexer) (o2n : HMap Nat Nat)
    (h : ExplicitIndexer.newWithIndices t = .ok (ix, o2n)) :
    -- the n-gram inventory is the given one
    ix.ngrams = t.map (·.1) ∧
    -- the returned mapping sends the old index of every n-gram to its new one
    (∀ g i, (g, i) ∈ t → ∃ j, o2n.get i = some j ∧ Indexer.indexNgram ix (NGram.ofStr g) = .ok [j]) ∧
    -- n-grams outside the inventory have no index
    (∀ g, g ∉ t.map (·.1) → Indexer.indexNgram ix (NGram.ofStr g) = .ok []) ∧
    -- same old index iff same new index
    (∀ i i' j j', o2n.get i = some j → o2n.get i' = some j' → (i = i' ↔ j = j')) ∧
    -- the mapping is defined exactly on the old indices
    (∀ i, (∃ j, o2n.get i = some j) ↔ i ∈ t.map (·.2)) ∧
    -- new indices are exactly 0 .. bound-1
    (∀ j, (∃ i, o2n.get i = some j) ↔ j < ix.bound) ∧
    Indexer.upperBound ix = .ok ix.bound ∧
    -- numbered in the order of first appearance
    (∀ i i' j j', o2n.get i = some j → o2n.get i' = some j' →
      (t.map (·.2)).idxOf i < (t.map (·.2)).idxOf i' → j < j') := by
  rw [newWithIndices_eq] at h
  split at h
  · rename_i hn
    simp only [Res.ok.injEq, Prod.mk.injEq] at h
    obtain ⟨rfl, rfl⟩ := h
    have hd : Dense (o2nFrom HMap.empty (t.map (·.2))) := dense_empty.from _
    have hsome : ∀ i, (∃ j, (o2nFrom HMap.empty (t.map (·.2))).get i = some j) ↔ i ∈ t.map (·.2) := by
      intro i
      rw [← or_false (i ∈ t.map (·.2)), ← List.mem_nil_iff i, ← HMap.keys_empty (V := Nat),
        ← o2nFrom_mem_keys]
      cases hc : (o2nFrom HMap.empty (t.map (·.2))).get i with
      | none => simpa using HMap.get_eq_none_iff.mp hc
      | some j =>
        refine ⟨fun _ => ?_, fun _ => ⟨j, rfl⟩⟩
        apply Classical.byContradiction; intro hnm
        rw [HMap.get_eq_none_iff.mpr hnm] at hc; simp at hc
    have hkeys : (⟨t.map fun p => (p.1, ((o2nFrom HMap.empty (t.map (·.2))).get p.2).getD 0)⟩ :
        HMap Str Nat).keys = t.map (·.1) := by simp [HMap.keys]
    refine ⟨rfl, ?_, ?_, ?_, hsome, ?_, rfl, ?_⟩
    · intro g i hgi
      obtain ⟨j, hj⟩ := (hsome i).mpr (List.mem_map.mpr ⟨_, hgi, rfl⟩)
      refine ⟨j, hj, ?_⟩
      have := HMap.get_of_mem_entries (m := ⟨t.map fun p =>
        (p.1, ((o2nFrom HMap.empty (t.map (·.2))).get p.2).getD 0)⟩) (k := g) (v := j)
        (by rw [hkeys]; exact hn) (List.mem_map.mpr ⟨(g, i), hgi, by simp [hj]⟩)
      simp [Indexer.indexNgram, NGram.ofStr, this]
    · intro g hg
      have : HMap.get (⟨t.map fun p => (p.1, ((o2nFrom HMap.empty (t.map (·.2))).get p.2).getD 0)⟩ :
          HMap Str Nat) g = none := HMap.get_eq_none_iff.mpr (by rw [hkeys]; exact hg)
      simp [Indexer.indexNgram, NGram.ofStr, this]
    · intro i i' j j' hi hi'
      constructor
      · rintro rfl; rw [hi] at hi'; simpa using hi'
      · rintro rfl; exact hd.inj hi hi'
    · intro j
      exact ⟨fun ⟨i, hi⟩ => hd.get_lt hi, fun hj => hd.surj hj⟩
    · intro i i' j j' hi hi' hlt
      generalize hl : t.map (·.2) = l at *
      have hmem : i ∈ l.take (l.idxOf i') := by
        have hil : l.idxOf i < l.length := by
          have := List.idxOf_le_length (l := l) (a := i')
          omega
        have e : l[l.idxOf i] = i := List.getElem_idxOf hil
        have h2 : (l.take (l.idxOf i'))[l.idxOf i]'(by simp; omega) = i := by
          rw [List.getElem_take]; exact e
        exact h2 ▸ List.getElem_mem _
      have hnm : i' ∉ l.take (l.idxOf i') := by
        intro hm
        obtain ⟨k, hk, he⟩ := List.getElem_of_mem hm
        rw [List.getElem_take] at he
        have hk' : k < l.idxOf i' := by simp at hk; omega
        have hkl : k < l.length := by simp at hk; omega
        have hnot := List.not_of_lt_findIdx (p := (· == i')) (xs := l) (i := k) hk'
        simp [he] at hnot
      have e1 : o2nFrom HMap.empty l =
          o2nFrom (o2nFrom HMap.empty (l.take (l.idxOf i'))) (l.drop (l.idxOf i')) := by
        unfold o2nFrom
        rw [← List.foldl_append, List.take_append_drop]
      have hd1 : Dense (o2nFrom HMap.empty (l.take (l.idxOf i'))) := dense_empty.from _
      have hi1 : ∃ x, (o2nFrom HMap.empty (l.take (l.idxOf i'))).get i = some x := by
        cases hc : (o2nFrom HMap.empty (l.take (l.idxOf i'))).get i with
        | some x => exact ⟨x, rfl⟩
        | none =>
          exact absurd ((o2nFrom_mem_keys _ _).mpr (.inl hmem)) (HMap.get_eq_none_iff.mp hc)
      obtain ⟨x, hx⟩ := hi1
      have hxj : x = j := by
        have := o2nFrom_get hx (l.drop (l.idxOf i'))
        rw [← e1, hi] at this; simpa using this.symm
      have hxlt := hd1.get_lt hx
      have hge := o2nFrom_ge (m := o2nFrom HMap.empty (l.take (l.idxOf i'))) (l.drop (l.idxOf i'))
        (i := i') (j := j') (by
          rw [o2nFrom_mem_keys]; rintro (h | h)
          · exact hnm h
          · simp at h) (by rw [← e1]; exact hi')
      omega
  · simp at h

/-- Three n-grams of which two share an index: hypothesis of `c30_renumbering`. -/
example := c30_renumbering [(['a'], 7), (['b'], 3), (['c'], 7)] _ _ rfl

example : ∃ ix o2n, ExplicitIndexer.newWithIndices [(['a'], 7), (['b'], 3), (['c'], 7)] = .ok (ix, o2n) ∧
    o2n.get 7 = some 0 ∧ o2n.get 3 = some 1 ∧ ix.bound = 2 := ⟨_, _, rfl, rfl, rfl, rfl⟩


theorem sliceFrom_spec (s : Str) (a : Nat) :
    (∃ p t, s = p ++ t ∧ strLen p = a ∧ sliceFrom s a = .ok t) ∨
      ((∀ p t, s = p ++ t → strLen p ≠ a) ∧ sliceFrom s a = .panic) := by
  induction s generalizing a with
  | nil =>
    cases a with
    | zero => exact .inl ⟨[], [], rfl, rfl, rfl⟩
    | succ a =>
      refine .inr ⟨?_, rfl⟩
      intro p t h
      simp at h
      simp [h.1, strLen]
  | cons c s ih =>
    have hpos := c.utf8Size_pos
    have hc : ∀ p : Str, strLen (c :: p) = c.utf8Size + strLen p := fun p => by simp [strLen_eq_sum]
    cases a with
    | zero => exact .inl ⟨[], c :: s, rfl, rfl, rfl⟩
    | succ a =>
      by_cases h : a + 1 < c.utf8Size
      · refine .inr ⟨?_, by rw [sliceFrom, if_pos h]⟩
        intro p t hp
        cases p with
        | nil => simp [strLen]
        | cons d p =>
          simp only [List.cons_append, List.cons.injEq] at hp
          rw [← hp.1, hc]; omega
      · rw [sliceFrom, if_neg h]
        rcases ih (a + 1 - c.utf8Size) with ⟨p, t, h1, h2, h3⟩ | ⟨h1, h2⟩
        · exact .inl ⟨c :: p, t, by rw [h1]; rfl, by rw [hc]; omega, h3⟩
        · refine .inr ⟨?_, h2⟩
          intro p t hp
          cases p with
          | nil => simp [strLen]
          | cons d p =>
            simp only [List.cons_append, List.cons.injEq] at hp
            have := h1 p t hp.2
            rw [← hp.1, hc]; omega

theorem sliceTo_spec (s : Str) (a : Nat) :
    (∃ p t, s = p ++ t ∧ strLen p = a ∧ sliceTo s a = .ok p) ∨
      ((∀ p t, s = p ++ t → strLen p ≠ a) ∧ sliceTo s a = .panic) := by
  induction s generalizing a with
  | nil =>
    cases a with
    | zero => exact .inl ⟨[], [], rfl, rfl, rfl⟩
    | succ a =>
      refine .inr ⟨?_, rfl⟩
      intro p t h
      simp at h
      simp [h.1, strLen]
  | cons c s ih =>
    have hpos := c.utf8Size_pos
    have hc : ∀ p : Str, strLen (c :: p) = c.utf8Size + strLen p := fun p => by simp [strLen_eq_sum]
    cases a with
    | zero => exact .inl ⟨[], c :: s, rfl, rfl, rfl⟩
    | succ a =>
      by_cases h : a + 1 < c.utf8Size
      · refine .inr ⟨?_, by rw [sliceTo, if_pos h]⟩
        intro p t hp
        cases p with
        | nil => simp [strLen]
        | cons d p =>
          simp only [List.cons_append, List.cons.injEq] at hp
          rw [← hp.1, hc]; omega
      · rw [sliceTo, if_neg h]
        rcases ih (a + 1 - c.utf8Size) with ⟨p, t, h1, h2, h3⟩ | ⟨h1, h2⟩
        · exact .inl ⟨c :: p, t, by rw [h1]; rfl, by rw [hc]; omega, by rw [h3]; rfl⟩
        · refine .inr ⟨?_, by rw [h2]; rfl⟩
          intro p t hp
          cases p with
          | nil => simp [strLen]
          | cons d p =>
            simp only [List.cons_append, List.cons.injEq] at hp
            have := h1 p t hp.2
            rw [← hp.1, hc]; omega

theorem append_inj_strLen {p p' t t' : Str} (h : p ++ t = p' ++ t') (hl : strLen p = strLen p') : p = p' ∧ t = t' := by
  have h1 := sliceFrom_strLen p t
  have h2 := sliceFrom_strLen p' t'
  rw [h, hl, h2, Res.ok.injEq] at h1
  exact ⟨List.append_cancel_right (h1 ▸ h), h1.symm⟩

/-- **C26** (slices). The string slices by which the n-grams are taken: the slice from `a` to `b` is the part of the string
that begins after `a` bytes and ends after `b` bytes; if there is none, since the string is too short or one of the offsets is
inside a character, slicing panics. -/
theorem c26_slice (s : Str) (a b : Nat) :
    (∀ t, slice s a b = .ok t ↔ ∃ p q, s = p ++ t ++ q ∧ strLen p = a ∧ strLen p + strLen t = b) ∧
    ((¬ ∃ t p q, s = p ++ t ++ q ∧ strLen p = a ∧ strLen p + strLen t = b) → slice s a b = .panic) := by
  unfold slice
  by_cases hab : b < a
  · rw [if_pos hab]
    refine ⟨fun t => ⟨(fun h => by cases h), ?_⟩, fun _ => rfl⟩
    rintro ⟨p, q, _, h1, h2⟩
    omega
  · rw [if_neg hab]
    rcases sliceFrom_spec s a with ⟨p, t, h1, h2, h3⟩ | ⟨h1, h2⟩
    · rw [h3, Res.ok_bind]
      rcases sliceTo_spec t (b - a) with ⟨u, q, h4, h5, h6⟩ | ⟨h4, h5⟩
      · have hex : s = p ++ u ++ q ∧ strLen p = a ∧ strLen p + strLen u = b := ⟨by rw [h1, h4, List.append_assoc], h2, by omega⟩
        rw [h6]
        refine ⟨fun v => ⟨fun hv => ?_, ?_⟩, fun hn => absurd ⟨u, p, q, hex⟩ hn⟩
        · rw [Res.ok.injEq] at hv
          exact hv ▸ ⟨p, q, hex⟩
        · rintro ⟨p', q', e1, e2, e3⟩
          rw [hex.1, List.append_assoc, List.append_assoc] at e1
          obtain ⟨_, e4⟩ := append_inj_strLen e1 (by omega)
          rw [(append_inj_strLen e4 (by omega)).1]
      · rw [h5]
        refine ⟨fun v => ⟨(fun hv => by cases hv), ?_⟩, fun _ => rfl⟩
        rintro ⟨p', q', e1, e2, e3⟩
        rw [h1, List.append_assoc] at e1
        obtain ⟨_, e4⟩ := append_inj_strLen e1 (by omega)
        exact absurd (show strLen v = b - a by omega) (h4 v q' e4)
    · rw [h2]
      refine ⟨fun v => ⟨(fun hv => by cases hv), ?_⟩, fun _ => rfl⟩
      rintro ⟨p', q', e1, e2, e3⟩
      exact absurd e2 (h1 p' (v ++ q') (by rw [e1, List.append_assoc]))

/-- Two bytes per letter. -/
example : slice ['ä', 'ö', 'ü'] 2 4 = .ok ['ö'] ∧ slice ['ä', 'ö', 'ü'] 1 4 = .panic := by decide

end FF
