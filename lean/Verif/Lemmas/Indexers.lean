import Verif.Lemmas.Explicit

namespace FF

/-! ## n-gram enumeration, closed form over positions -/

theorem down_min_eq_filter {m : Nat} (hm : 1 ≤ m) (M k : Nat) :
    down m (min M k) = (List.range (M + 1)).reverse.filter fun n => decide (m ≤ n ∧ n ≤ k) := by
  induction M with
  | zero =>
    have h0 : ¬ m = 0 := by omega
    simp [List.range_succ, h0, down]
  | succ M ih =>
    rw [List.range_succ, List.reverse_append, List.reverse_singleton, List.singleton_append,
      List.filter_cons, ← ih]
    by_cases h1 : M + 1 ≤ k
    · by_cases h2 : m ≤ M + 1
      · rw [if_pos (by simp [h1, h2]), Nat.min_eq_left h1, Nat.min_eq_left (by omega), down]
        simp [h2]
      · rw [if_neg (by simp [h2]), down_eq_nil (by omega), down_eq_nil (by omega)]
    · rw [if_neg (by simp [h1]), Nat.min_eq_right (by omega), Nat.min_eq_right (by omega)]

theorem specFrom_eq_positions {m : Nat} (hm : 1 ≤ m) (M : Nat) (s : Str) :
    specFrom m M s = (List.range s.length).flatMap fun i =>
      ((List.range (M + 1)).reverse.filter fun n => decide (m ≤ n ∧ i + n ≤ s.length)).map
        fun n => ⟨(s.drop i).take n, n⟩ := by
  induction s with
  | nil => rfl
  | cons c s ih =>
    rw [specFrom, ih, List.length_cons, List.range_succ_eq_map (n := s.length), List.flatMap_cons,
      List.flatMap_map, down_min_eq_filter hm]
    congr 1
    · simp
    · have : ∀ i n, (i + 1 + n ≤ s.length + 1) = (i + n ≤ s.length) := by
        intro i n; apply propext; omega
      simp [Nat.succ_eq_add_one, this]

theorem mem_specFrom {m M : Nat} (hm : 1 ≤ m) {s : Str} {g : NGram} :
    g ∈ specFrom m M s ↔ ∃ i n, m ≤ n ∧ n ≤ M ∧ i + n ≤ s.length ∧ g = ⟨(s.drop i).take n, n⟩ := by
  rw [specFrom_eq_positions hm]
  simp only [List.mem_flatMap, List.mem_range, List.mem_map, List.mem_filter, List.mem_reverse,
    decide_eq_true_eq]
  constructor
  · rintro ⟨i, hi, n, ⟨hn, h1, h2⟩, rfl⟩
    exact ⟨i, n, h1, by omega, h2, rfl⟩
  · rintro ⟨i, n, h1, h2, h3, rfl⟩
    exact ⟨i, by omega, n, ⟨by omega, h1, h3⟩, rfl⟩

theorem specFrom_eq_nil_iff {m M : Nat} (hm : 1 ≤ m) (hM : m ≤ M) {s : Str} :
    specFrom m M s = [] ↔ s.length < m := by
  constructor
  · intro h
    apply Classical.byContradiction; intro hn
    have : (⟨(s.drop 0).take m, m⟩ : NGram) ∈ specFrom m M s :=
      (mem_specFrom hm).mpr ⟨0, m, by omega, hM, by omega, rfl⟩
    rw [h] at this; simp at this
  · exact specFrom_eq_nil

theorem specFrom_charLen {m M : Nat} (hm : 1 ≤ m) {s : Str} {g : NGram} (h : g ∈ specFrom m M s) :
    g = NGram.ofStr g.inner := by
  obtain ⟨i, n, _, _, h3, rfl⟩ := (mem_specFrom hm).mp h
  simp [NGram.ofStr]; omega

theorem down_length (m n : Nat) (hm : 1 ≤ m) : (down m n).length = n + 1 - m := by
  induction n with
  | zero =>
    rw [down_eq_nil (by omega)]; simp; omega
  | succ n ih =>
    by_cases h : m ≤ n + 1
    · rw [down_cons h hm]; simp [ih]; omega
    · rw [down_eq_nil (by omega)]; simp; omega

theorem specFrom_length_le {m M : Nat} (hm : 1 ≤ m) (s : Str) :
    (specFrom m M s).length ≤ (M - m + 1) * s.length := by
  induction s with
  | nil => simp [specFrom]
  | cons c s ih =>
    simp only [specFrom, List.length_append, List.length_map, down_length _ _ hm, List.length_cons,
      Nat.mul_add, Nat.mul_one]
    omega

/-! ## Indexers -/

theorem mask_toNat {e : Nat} {ix : HashIndexer} (h : HashIndexer.new e = .ok ix) :
    ix.bucketsExp = e ∧ ix.mask.toNat = 2 ^ e - 1 ∧ e ≤ 64 := by
  unfold HashIndexer.new at h
  by_cases he : e ≤ 64
  · simp only [Res.assert, he, decide_true, Res.ok_bind, if_true, Res.pure_eq, Res.ok.injEq] at h
    subst h
    refine ⟨rfl, ?_, he⟩
    simp only
    by_cases h64 : e = 64
    · subst h64; decide
    · rw [if_neg h64]
      have hlt : e < 64 := by omega
      have h1 : ((1 : UInt64) <<< UInt64.ofNat e).toNat = 2 ^ e := by
        have h3 : 2 ^ e < 2 ^ 64 := Nat.pow_lt_pow_right (by omega) hlt
        rw [UInt64.toNat_shiftLeft, UInt64.toNat_ofNat']
        rw [Nat.mod_eq_of_lt (a := e) (by omega), Nat.mod_eq_of_lt hlt, Nat.shiftLeft_eq]
        simp only [UInt64.toNat_one, Nat.one_mul]
        exact Nat.mod_eq_of_lt h3
      rw [UInt64.toNat_sub_of_le]
      · rw [h1]; rfl
      · rw [UInt64.le_iff_toNat_le, h1]
        exact Nat.one_le_two_pow
  · simp [Res.assert, he] at h

theorem and_mask {e : Nat} {ix : HashIndexer} (h : HashIndexer.new e = .ok ix) (x : UInt64) :
    (x &&& ix.mask).toNat = x.toNat % 2 ^ e := by
  rw [UInt64.toNat_and, (mask_toNat h).2.1, Nat.and_two_pow_sub_one_eq_mod]

/-- All indices an indexer returns are below its upper bound. -/
def InRange {I : Type} [Indexer I] (ix : I) : Prop :=
  ∀ g l ub, Indexer.indexNgram ix g = .ok l → Indexer.upperBound ix = .ok ub → ∀ i ∈ l, i < ub

theorem HashIndexer.inRange {e : Nat} {ix : HashIndexer} (h : HashIndexer.new e = .ok ix) : InRange ix := by
  intro g l ub hl hub i hi
  simp only [Indexer.indexNgram, Res.ok.injEq] at hl
  subst hl
  simp only [HashIndexer.indexWith, List.mem_singleton] at hi
  subst hi
  rw [and_mask h]
  simp only [Indexer.upperBound, HashIndexer.upperBound, (mask_toNat h).1] at hub
  split at hub
  · simp only [Res.ok.injEq] at hub
    subst hub
    exact Nat.mod_lt _ (Nat.two_pow_pos e)
  · simp at hub

theorem FastTextIndexer.new_eq_ok {b : Nat} {ix : FastTextIndexer} :
    FastTextIndexer.new b = .ok ix ↔ b ≤ 2 ^ 31 - 1 ∧ ix = ⟨UInt32.ofNat b⟩ := by
  unfold FastTextIndexer.new
  by_cases h : b ≤ 2 ^ 31 - 1
  · simp [Res.assert, h, eq_comm]
  · simp [Res.assert, h]

theorem FastTextIndexer.inRange (ix : FastTextIndexer) : InRange ix := by
  intro g l ub hl hub i hi
  simp only [Indexer.indexNgram, FastTextIndexer.index] at hl
  split at hl
  · simp at hl
  · rename_i h0
    simp only [Res.ok.injEq] at hl
    subst hl
    simp only [List.mem_singleton] at hi
    subst hi
    simp only [Indexer.upperBound, Res.ok.injEq] at hub
    subst hub
    rw [UInt32.toNat_mod]
    apply Nat.mod_lt
    apply Nat.pos_of_ne_zero
    intro hz
    exact h0 (UInt32.toNat_inj.mp (by simpa using hz))

theorem ExplicitIndexer.inRange {ix : ExplicitIndexer} (h : ix.Built) : InRange ix := by
  intro g l ub hl hub i hi
  simp only [Indexer.indexNgram, Res.ok.injEq] at hl
  simp only [Indexer.upperBound, Res.ok.injEq] at hub
  subst hl; subst hub
  cases hg : ix.index.get g.inner with
  | none => simp [hg] at hi
  | some j =>
    simp only [hg, List.mem_singleton] at hi
    subst hi
    exact h.lt_bound (HMap.mem_entries_of_get hg)

theorem Res.mapM_ok {α β : Type} (f : α → β) (g : α → Res β) (l : List α)
    (h : ∀ a ∈ l, g a = .ok (f a)) : l.mapM g = .ok (l.map f) := by
  induction l with
  | nil => rfl
  | cons a l ih =>
    rw [List.mapM_cons, h a (by simp), ih fun x hx => h x (by simp [hx])]
    rfl

/-- The indexer answers `f g` for every n-gram `g` (in particular it never panics). -/
def Answers {I : Type} [Indexer I] (ix : I) (f : NGram → List Nat) : Prop :=
  ∀ g, Indexer.indexNgram ix g = .ok (f g)

theorem HashIndexer.answers {e : Nat} {ix : HashIndexer} (h : HashIndexer.new e = .ok ix) :
    Answers ix fun g => [(fnv1a64 g.hashBytes).toNat % 2 ^ e] := by
  intro g
  simp [Indexer.indexNgram, HashIndexer.indexWith, and_mask h]

theorem FastTextIndexer.answers {b : Nat} {ix : FastTextIndexer} (h : FastTextIndexer.new b = .ok ix)
    (hb : b ≠ 0) : Answers ix fun g => [(fasttextHash g.inner).toNat % b] := by
  intro g
  obtain ⟨hle, rfl⟩ := FastTextIndexer.new_eq_ok.mp h
  have hlt : b < 2 ^ 32 := by omega
  have hne : UInt32.ofNat b ≠ 0 := by
    intro hz
    have := congrArg UInt32.toNat hz
    rw [UInt32.toNat_ofNat', Nat.mod_eq_of_lt hlt] at this
    exact hb (by simpa using this)
  simp only [Indexer.indexNgram, FastTextIndexer.index, hne, if_false]
  rw [UInt32.toNat_mod, UInt32.toNat_ofNat', Nat.mod_eq_of_lt hlt]

theorem hashArray_length (h : UInt64 × UInt64) : (hashArray h).length = 4 := rfl

theorem FloretIndexer.answers {nb nh : Nat} {seed : UInt32} {ix : FloretIndexer}
    (h : FloretIndexer.new nb nh seed = .ok ix) :
    Answers ix fun g => ((hashArray (murmur3 (utf8 g.inner) seed)).take nh).map (· % nb) := by
  intro g
  obtain ⟨hh, hb, rfl⟩ := FloretIndexer.new_eq_ok.mp h
  simp only [Indexer.indexNgram, FloretIndexer.indexWith]
  generalize ha : hashArray (murmur3 (utf8 g.inner) seed) = arr
  have hl : arr.length = 4 := by rw [← ha]; rfl
  rw [Res.mapM_ok (fun i => (arr[i]?).getD 0 % nb)]
  · congr 1
    apply List.ext_getElem?
    intro i
    simp only [List.getElem?_map, List.getElem?_take]
    by_cases hi : i < nh
    · rw [if_pos hi]
      simp [hi, List.getElem?_eq_getElem (show i < arr.length by omega)]
    · rw [if_neg hi]
      simp [Nat.le_of_not_lt hi]
  · intro i hi
    simp only [List.mem_range] at hi
    have : i < arr.length := by omega
    simp [List.getElem?_eq_getElem this, Res.unwrap, hb]

theorem FloretIndexer.inRange {nb nh : Nat} {seed : UInt32} {ix : FloretIndexer}
    (h : FloretIndexer.new nb nh seed = .ok ix) : InRange ix := by
  intro g l ub hl hub i hi
  rw [FloretIndexer.answers h g] at hl
  obtain ⟨hh, hb, rfl⟩ := FloretIndexer.new_eq_ok.mp h
  simp only [Res.ok.injEq] at hl
  simp only [Indexer.upperBound, Res.ok.injEq] at hub
  subst hl; subst hub
  obtain ⟨x, _, rfl⟩ := List.mem_map.mp hi
  exact Nat.mod_lt _ (by omega)

theorem ExplicitIndexer.answers (ix : ExplicitIndexer) :
    Answers ix fun g => (ix.index.get g.inner).toList := by
  intro g
  simp only [Indexer.indexNgram]
  cases ix.index.get g.inner <;> rfl

theorem flatMap_single {α β : Type} (f : α → β) (l : List α) : l.flatMap (fun a => [f a]) = l.map f := by
  induction l with
  | nil => rfl
  | cons a l ih => rw [List.flatMap_cons, ih]; rfl

/-- What is indexed for a bracketed word. -/
def indexed {I : Type} [Indexer I] (ix : I) (s : Str) (m M : Nat) : List NGram :=
  (match Indexer.scope ix with
    | .substrings => []
    | .stringAndSubstrings => [NGram.ofStr s]) ++ specFrom m M s

theorem subwordIndicesWithNgrams_eq {I : Type} [Indexer I] {ix : I} {f : NGram → List Nat}
    (hf : Answers ix f) (s : Str) {m M : Nat} (hm : 1 ≤ m) (hM : m ≤ M) :
    subwordIndicesWithNgrams ix s m M = .ok ((indexed ix s m M).map fun g => (g.inner, f g)) := by
  unfold subwordIndicesWithNgrams
  rw [ngrams_eq_specFrom s m M hm hM]
  simp only [Res.ok_bind]
  refine (Res.mapM_ok (fun g => (g.inner, f g)) _ _ ?_).trans ?_
  · intro g _
    rw [hf g]; rfl
  · rfl

theorem subwordIndices_eq {I : Type} [Indexer I] {ix : I} {f : NGram → List Nat}
    (hf : Answers ix f) (s : Str) {m M : Nat} (hm : 1 ≤ m) (hM : m ≤ M) :
    subwordIndices ix s m M = .ok ((indexed ix s m M).flatMap f) := by
  unfold subwordIndices
  rw [subwordIndicesWithNgrams_eq hf s hm hM]
  simp [List.flatMap_map]

theorem subwordIndices_panic {I : Type} [Indexer I] (ix : I) (s : Str) {m M : Nat}
    (h : m = 0 ∨ M < m) : subwordIndices ix s m M = .panic := by
  simp [subwordIndices, subwordIndicesWithNgrams, ngrams_panic s m M h]

theorem mapM_ok_mem {α β : Type} {g : α → Res β} {l : List α} {r : List β} (h : l.mapM g = .ok r) {b : β}
    (hb : b ∈ r) : ∃ a ∈ l, g a = .ok b := by
  induction l generalizing r with
  | nil =>
    have : r = [] := by simpa [List.mapM_nil] using h.symm
    subst this; simp at hb
  | cons a l ih =>
    rw [List.mapM_cons] at h
    obtain ⟨x, hx, h⟩ := Res.bind_eq_ok.mp h
    obtain ⟨xs, hxs, h⟩ := Res.bind_eq_ok.mp h
    simp only [Res.pure_eq, Res.ok.injEq] at h
    subst h
    rcases List.mem_cons.mp hb with rfl | hb
    · exact ⟨a, by simp, hx⟩
    · obtain ⟨a', ha', he⟩ := ih hxs hb
      exact ⟨a', by simp [ha'], he⟩

theorem subwordIndices_lt {I : Type} [Indexer I] {ix : I} (hr : InRange ix) {ub : Nat}
    (hub : Indexer.upperBound ix = .ok ub) {s : Str} {m M : Nat} {l : List Nat}
    (h : subwordIndices ix s m M = .ok l) : ∀ i ∈ l, i < ub := by
  intro i hi
  unfold subwordIndices at h
  obtain ⟨ps, hps, h⟩ := Res.bind_eq_ok.mp h
  simp only [Res.pure_eq, Res.ok.injEq] at h
  subst h
  obtain ⟨p, hp, hip⟩ := List.mem_flatMap.mp hi
  unfold subwordIndicesWithNgrams at hps
  obtain ⟨gs, _, hps⟩ := Res.bind_eq_ok.mp hps
  obtain ⟨g, _, hg⟩ := mapM_ok_mem hps hp
  obtain ⟨is, his, hg⟩ := Res.bind_eq_ok.mp hg
  simp only [Res.pure_eq, Res.ok.injEq] at hg
  subst hg
  exact hr g is ub his hub i hip

end FF
