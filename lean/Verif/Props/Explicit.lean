import Verif.Props.Lookup

/-!
# Conversion to explicit n-grams (C32, C33)
-/

namespace FF

open Res

/-! ## The n-gram index -/

/-- Specification: the indexer gives every n-gram exactly one index, `h g`, below its upper bound; n-grams are the
substrings of the specification `NGramsSpec`. -/
structure SingleIndex {I : Type} [Indexer I] (ix : I) (m M : Nat) (h : Str → Nat) : Prop where
  list : ∀ s, subwordIndicesWithNgrams ix s m M =
    .ok (((NGramsSpec s m M).map (·.1)).map fun g => (g, [h g]))
  bound : ∀ ub, Indexer.upperBound ix = .ok ub → ∀ g, h g < ub

theorem HashIndexer.singleIndex {e : Nat} {ix : HashIndexer} (hix : HashIndexer.new e = .ok ix) {m M : Nat}
    (hm : 1 ≤ m) (hM : m ≤ M) : SingleIndex ix m M fun g => bucketHash g % 2 ^ e where
  list s := by
    rw [subwordIndicesWithNgrams_eq (HashIndexer.answers hix) s hm hM, ← specFrom_inner_eq _ hm,
      show indexed ix s m M = specFrom m M s from rfl, List.map_map]
    refine congrArg Res.ok (List.map_congr_left fun g hg => ?_)
    have hc := specFrom_charLen hm hg
    rw [Function.comp_apply]
    have : bucketHash g.inner = (fnv1a64 g.hashBytes).toNat := by
      rw [hc]; rfl
    rw [← this]
  bound ub hub g :=
    HashIndexer.inRange hix (NGram.ofStr g) _ ub (HashIndexer.answers hix (NGram.ofStr g)) hub _ (by
      simp only [List.mem_singleton]; rfl)

theorem FastTextIndexer.singleIndex {b : Nat} {ix : FastTextIndexer} (hix : FastTextIndexer.new b = .ok ix)
    (hb : b ≠ 0) {m M : Nat} (hm : 1 ≤ m) (hM : m ≤ M) :
    SingleIndex ix m M fun g => (fasttextHash g).toNat % b where
  list s := by
    rw [subwordIndicesWithNgrams_eq (FastTextIndexer.answers hix hb) s hm hM, ← specFrom_inner_eq _ hm]
    show Res.ok ((specFrom m M s).map _) = _
    rw [List.map_map]; rfl
  bound ub hub g :=
    FastTextIndexer.inRange ix (NGram.ofStr g) _ ub (FastTextIndexer.answers hix hb (NGram.ofStr g)) hub _ (by
      simp only [List.mem_singleton]; rfl)

/-- The map holds exactly the n-grams of `S`, each with its index. -/
def Collected (h : Str → Nat) (m : HMap Str Nat) (S : List Str) : Prop :=
  m.keys.Nodup ∧ ∀ g i, m.get g = some i ↔ g ∈ S ∧ i = h g

theorem collected_step {h : Str → Nat} {m : HMap Str Nat} {S : List Str} (hc : Collected h m S) (g : Str) :
    ∃ m', toExplicitStep m (g, [h g]) = .ok m' ∧ Collected h m' (S ++ [g]) := by
  unfold toExplicitStep
  cases hg : m.get g with
  | some x =>
    refine ⟨m, by simp, hc.1, fun g' i => ?_⟩
    rw [hc.2]
    have := ((hc.2 g x).mp hg).1
    constructor
    · rintro ⟨a, b⟩; exact ⟨by simp [a], b⟩
    · rintro ⟨a, b⟩
      simp only [List.mem_append, List.mem_singleton] at a
      rcases a with a | rfl
      · exact ⟨a, b⟩
      · exact ⟨this, b⟩
  | none =>
    refine ⟨m.insert g (h g), by simp, HMap.nodup_keys_insert hc.1 _ _, fun g' i => ?_⟩
    rw [HMap.get_insert]
    by_cases he : g = g'
    · subst he; simp [eq_comm]
    · rw [if_neg he, hc.2]
      simp [Ne.symm he]

theorem collected_fold {h : Str → Nat} {m : HMap Str Nat} {S : List Str} (hc : Collected h m S)
    (gs : List Str) :
    ∃ m', (gs.map fun g => (g, [h g])).foldlM toExplicitStep m = .ok m' ∧ Collected h m' (S ++ gs) := by
  induction gs generalizing m S with
  | nil => exact ⟨m, rfl, by simpa using hc⟩
  | cons g gs ih =>
    obtain ⟨m1, h1, hc1⟩ := collected_step hc g
    obtain ⟨m2, h2, hc2⟩ := ih hc1
    refine ⟨m2, ?_, by simpa using hc2⟩
    rw [List.map_cons, List.foldlM_cons, h1]
    exact h2

theorem toExplicitIndex_eq {I : Type} [BucketIndexer I] {v : SubwordVocab I} {h : Str → Nat}
    (hs : SingleIndex v.indexer v.minN v.maxN h) :
    ∃ m, toExplicitIndex v = .ok m ∧
      Collected h m (v.words.flatMap fun w => bracketedNGrams v.bow w v.eow v.minN v.maxN) := by
  unfold toExplicitIndex
  have key : ∀ (ws : List Str) (m : HMap Str Nat) (S : List Str), Collected h m S →
      ∃ m', ws.foldlM (fun m w => do
        let l ← subwordIndicesWithNgrams v.indexer (v.bracket w) v.minN v.maxN
        l.foldlM toExplicitStep m) m = .ok m' ∧
        Collected h m' (S ++ ws.flatMap fun w => bracketedNGrams v.bow w v.eow v.minN v.maxN) := by
    intro ws
    induction ws with
    | nil => intro m S hc; exact ⟨m, rfl, by simpa using hc⟩
    | cons w ws ih =>
      intro m S hc
      obtain ⟨m1, h1, hc1⟩ := collected_fold hc (bracketedNGrams v.bow w v.eow v.minN v.maxN)
      obtain ⟨m2, h2, hc2⟩ := ih m1 _ hc1
      refine ⟨m2, ?_, by simpa using hc2⟩
      rw [List.foldlM_cons]
      rw [hs.list]
      simp only [Res.ok_bind]
      rw [show (NGramsSpec (v.bracket w) v.minN v.maxN).map (·.1) =
        bracketedNGrams v.bow w v.eow v.minN v.maxN from rfl, h1]
      exact h2
  obtain ⟨m, h1, h2⟩ := key v.words HMap.empty [] ⟨by simp, by simp⟩
  exact ⟨m, h1, by simpa using h2⟩

theorem length_le_of_nodup_lt {l : List Nat} {n : Nat} (hn : l.Nodup) (h : ∀ x ∈ l, x < n) : l.length ≤ n := by
  induction n generalizing l with
  | zero =>
    cases l with
    | nil => simp
    | cons x _ => exact absurd (h x (by simp)) (by omega)
  | succ n ih =>
    have := ih (l := l.erase n) (hn.erase n) (by
      intro x hx
      have h1 := h x (List.mem_of_mem_erase hx)
      have h2 := (hn.mem_erase_iff.mp hx).1
      omega)
    by_cases hm : n ∈ l
    · rw [List.length_erase_of_mem hm] at this; omega
    · rw [List.erase_of_not_mem hm] at this; omega

/-- What the converted vocabulary looks like. -/
theorem toExplicit_vocab {I : Type} [BucketIndexer I] {ws : List Str} {m M : Nat} {ix : I} {bow eow : Str}
    {v : SubwordVocab I} (hv : SubwordVocab.newWithBoundaries ws m M ix bow eow = .ok v) {h : Str → Nat}
    (hs : SingleIndex ix m M h) {order : List (Str × Nat) → List (Str × Nat)} (hord : ∀ l, (order l).Perm l) :
    ∃ ev ix' o2n ub, toExplicit order v = .ok (ev, o2n) ∧ Dense o2n ∧
      SubwordVocab.newWithBoundaries ws m M ix' ['<'] ['>'] = .ok ev ∧
      (∃ t, ExplicitIndexer.newWithIndices t = .ok (ix', o2n)) ∧
      Indexer.upperBound ix = .ok ub ∧ (∀ i j, o2n.get i = some j → i < ub) ∧
      (∀ g, g ∉ ws.flatMap (fun w => bracketedNGrams bow w eow m M) → ix'.index.get g = none) ∧
      (∀ g, g ∈ ws.flatMap (fun w => bracketedNGrams bow w eow m M) →
        ∃ j, o2n.get (h g) = some j ∧ ix'.index.get g = some j) := by
  obtain ⟨hn, ⟨ub, hub, hle⟩, rfl⟩ := SubwordVocab.newWithBoundaries_eq_ok.mp hv
  obtain ⟨mp, hmp, hc⟩ := toExplicitIndex_eq (v := ⟨bow, eow, ix, indexMap ws, ws, m, M⟩) hs
  dsimp only at hc
  have hperm := hord mp.entries
  have hnd : ((order mp.entries).map (·.1)).Nodup := (hperm.map _).nodup_iff.mpr hc.1
  obtain ⟨⟨ix', o2n⟩, hix'⟩ := (c30_accepts (order mp.entries)).1 hnd
  obtain ⟨c1, c2, c3, c4, c5, c6, c7, c8⟩ := c30_renumbering _ _ _ hix'
  have hdense : Dense o2n := by
    have := hix'
    rw [newWithIndices_eq, if_pos hnd] at this
    cases this
    exact dense_empty.from _
  have hbound : ix'.bound = o2n.len := by
    have := hix'
    rw [newWithIndices_eq, if_pos hnd] at this
    cases this; rfl
  have hlt : ∀ i j, o2n.get i = some j → i < ub := by
    intro i j hij
    obtain ⟨⟨g, i'⟩, hgi, he⟩ := List.mem_map.mp ((c5 i).mp ⟨j, hij⟩)
    dsimp only at he
    subst he
    have := (hc.2 g i').mp (HMap.get_of_mem_entries hc.1 (hperm.mem_iff.mp hgi))
    rw [this.2]
    exact hs.bound ub hub g
  have hblen : o2n.len ≤ ub := by
    rw [HMap.len_eq_keys_length]
    apply length_le_of_nodup_lt hdense.1
    intro i hi
    cases hg : o2n.get i with
    | none => exact absurd hi (HMap.get_eq_none_iff.mp hg)
    | some j => exact hlt i j hg
  have hev : SubwordVocab.newWithBoundaries ws m M ix' ['<'] ['>'] =
      .ok ⟨['<'], ['>'], ix', indexMap ws, ws, m, M⟩ :=
    SubwordVocab.newWithBoundaries_eq_ok.mpr ⟨hn, ⟨ix'.bound, rfl, by omega⟩, rfl⟩
  refine ⟨_, ix', o2n, ub, ?_, hdense, hev, ⟨_, hix'⟩, hub, hlt, ?_, ?_⟩
  · unfold toExplicit
    rw [hmp]
    simp only [Res.ok_bind]
    rw [hix']
    simp only [Res.ok_bind]
    show (SubwordVocab.newWithBoundaries ws m M ix' ['<'] ['>'] >>= _) = _
    rw [hev]
    rfl
  · intro g hg
    have : g ∉ (order mp.entries).map (·.1) := by
      intro hmem
      rw [(hperm.map _).mem_iff] at hmem
      have hmem : g ∈ mp.keys := hmem
      cases hgg : mp.get g with
      | none => exact HMap.get_eq_none_iff.mp hgg hmem
      | some i => exact hg ((hc.2 g i).mp hgg).1
    have h3 := c3 g this
    simp only [Indexer.indexNgram, NGram.ofStr] at h3
    cases hgg : ix'.index.get g with
    | none => rfl
    | some i => rw [hgg] at h3; simp at h3
  · intro g hg
    have hm := HMap.mem_entries_of_get ((hc.2 g (h g)).mpr ⟨hg, rfl⟩)
    obtain ⟨j, hj, h2⟩ := c2 g (h g) (hperm.mem_iff.mpr hm)
    refine ⟨j, hj, ?_⟩
    simp only [Indexer.indexNgram, NGram.ofStr] at h2
    cases hgg : ix'.index.get g with
    | none => rw [hgg] at h2; simp at h2
    | some i => rw [hgg] at h2; simp only [Res.ok.injEq, List.cons.injEq, and_true] at h2; rw [h2]

/-! ## The row mapping -/

theorem explicitMapping_fold {wl : Nat} (l : List (Nat × Nat)) (m0 : List Nat)
    (hlt : ∀ p ∈ l, wl + p.2 < m0.length) (hn : (l.map (·.2)).Nodup) :
    ∃ mp, l.foldlM (fun m p =>
        if wl + p.2 < m.length then Res.ok (m.set (wl + p.2) (p.1 + wl)) else .panic) m0 = .ok mp ∧
      mp.length = m0.length ∧ (∀ i, (∀ p ∈ l, wl + p.2 ≠ i) → mp[i]? = m0[i]?) ∧
      ∀ p ∈ l, mp[wl + p.2]? = some (p.1 + wl) := by
  induction l generalizing m0 with
  | nil => exact ⟨m0, rfl, rfl, fun _ _ => rfl, by simp⟩
  | cons q l ih =>
    have hq := hlt q (by simp)
    obtain ⟨mp, h1, h2, h3, h4⟩ := ih (m0.set (wl + q.2) (q.1 + wl))
      (by intro p hp; rw [List.length_set]; exact hlt p (by simp [hp])) (List.nodup_cons.mp hn).2
    refine ⟨mp, ?_, by rw [h2, List.length_set], ?_, ?_⟩
    · rw [List.foldlM_cons, if_pos hq]; exact h1
    · intro i hi
      rw [h3 i fun p hp => hi p (by simp [hp]), List.getElem?_set_ne (hi q (by simp))]
    · intro p hp
      simp only [List.mem_cons] at hp
      rcases hp with rfl | hp
      · rw [h3 _ fun r hr he => ?_, List.getElem?_set_self hq]
        have hr2 : r.2 = p.2 := by omega
        exact (List.nodup_cons.mp hn).1 (by show p.2 ∈ _; rw [← hr2]; exact List.mem_map_of_mem hr)
      · exact h4 p hp

theorem explicitMapping_eq {o2n : HMap Nat Nat} (hd : Dense o2n) (wl : Nat)
    {order2 : List (Nat × Nat) → List (Nat × Nat)} (hord : ∀ l, (order2 l).Perm l) :
    ∃ mp, Embeddings.explicitMapping wl (wl + o2n.len) (order2 o2n.entries) = .ok mp ∧
      mp.length = wl + o2n.len ∧ (∀ i, i < wl → mp[i]? = some i) ∧
      ∀ i j, o2n.get i = some j → mp[wl + j]? = some (i + wl) := by
  have hperm := hord o2n.entries
  obtain ⟨mp, h1, h2, h3, h4⟩ := explicitMapping_fold (wl := wl) (order2 o2n.entries)
    (List.range (wl + o2n.len)) (by
      intro p hp
      have := hd.get_lt (HMap.get_of_mem_entries hd.1 (hperm.mem_iff.mp hp))
      rw [List.length_range]; omega) (by
      rw [(hperm.map _).nodup_iff, hd.2]; exact List.nodup_range)
  refine ⟨mp, h1, by rw [h2, List.length_range], ?_, ?_⟩
  · intro i hi
    rw [h3 i (by intro p _; omega), List.getElem?_range (by omega)]
  · intro i j hij
    exact h4 (i, j) (hperm.mem_iff.mpr (HMap.mem_entries_of_get hij))

/-! ## C32, C33 -/

/-- Specification: rows can be picked by any list of row indices in range. -/
def MapsTotal {S S' F : Type} [Storage S F] [CloneFromMapping S S'] (s : S) : Prop :=
  ∀ mapping : List Nat, (∀ j ∈ mapping, j < (shape s).1) → ∃ t : S', cloneFromMapping s mapping = .ok t

/-- The n-grams of a word that also occur in a vocabulary word. -/
def sharedNGrams (ws : List Str) (bow eow : Str) (m M : Nat) (gs : List Str) : List Str :=
  gs.filter fun g => decide (g ∈ ws.flatMap fun w => bracketedNGrams bow w eow m M)

section
variable {T I S S' F : Type} [BucketIndexer I] [Storage S F] [Storage S' F] [CloneFromMapping S S'] [Scalar F]

theorem single_idx_unknown {ws : List Str} {m M : Nat} {ix : I} {bow eow : Str} {v : SubwordVocab I}
    (hv : SubwordVocab.newWithBoundaries ws m M ix bow eow = .ok v) {h : Str → Nat}
    (hs : SingleIndex ix m M h) {w : Str} (hw : w ∉ ws) :
    Vocab.idx v w = .ok (if bracketedNGrams bow w eow m M = [] then none
      else some (.subword ((bracketedNGrams bow w eow m M).map fun g => ws.length + h g))) := by
  obtain ⟨hn, _, rfl⟩ := SubwordVocab.newWithBoundaries_eq_ok.mp hv
  have hlen : (indexMap ws).len = ws.length := (indexMap_len_iff ws).mpr hn
  simp only [Vocab.idx, SubwordVocab.idx, (indexMap_get_none w).mpr hw, SubwordVocab.subwordIndices,
    SubwordVocab.bracket, subwordIndices, hs.list, Res.ok_bind, Res.pure_eq]
  have e1 : List.flatMap (fun x => x.2) (((NGramsSpec (bow ++ w ++ eow) m M).map (·.1)).map fun g => (g, [h g])) =
      (bracketedNGrams bow w eow m M).map h := by
    rw [List.flatMap_map, flatMap_single]; rfl
  rw [e1]
  by_cases hb : bracketedNGrams bow w eow m M = []
  · simp [hb]
  · simp [hb, hlen, Function.comp_def, Nat.add_comm]

omit [Scalar F] in
/-- The whole conversion. -/
theorem toExplicit_eq (e : Embeddings T (SubwordVocab I) S F) {ws : List Str} {m M : Nat} {ix : I}
    {bow eow : Str} (hv : SubwordVocab.newWithBoundaries ws m M ix bow eow = .ok e.vocab) {h : Str → Nat}
    (hs : SingleIndex ix m M h) (hrows : Vocab.vocabLen e.vocab = .ok (shape e.storage).1)
    (hmr : MapsRows (T := S') e.storage) (hmt : MapsTotal (S' := S') e.storage)
    (order : List (Str × Nat) → List (Str × Nat)) (hord : ∀ l, (order l).Perm l)
    (order2 : List (Nat × Nat) → List (Nat × Nat)) (hord2 : ∀ l, (order2 l).Perm l) :
    ∃ (e' : Embeddings T ExplicitSubwordVocab S' F) (ix' : ExplicitIndexer) (o2n : HMap Nat Nat),
      e.toExplicit order order2 = .ok e' ∧ e'.norms = e.norms ∧ e'.metadata = none ∧
      SubwordVocab.newWithBoundaries ws m M ix' ['<'] ['>'] = .ok e'.vocab ∧
      (∃ t, ExplicitIndexer.newWithIndices t = .ok (ix', o2n)) ∧
      (shape e'.storage).2 = (shape e.storage).2 ∧
      (∀ i, i < ws.length → Storage.embedding e'.storage i = Storage.embedding e.storage i) ∧
      (∀ i j, o2n.get i = some j →
        Storage.embedding e'.storage (ws.length + j) = Storage.embedding e.storage (ws.length + i)) ∧
      (∀ g, g ∉ ws.flatMap (fun w => bracketedNGrams bow w eow m M) → ix'.index.get g = none) ∧
      (∀ g, g ∈ ws.flatMap (fun w => bracketedNGrams bow w eow m M) →
        ∃ j, o2n.get (h g) = some j ∧ ix'.index.get g = some j) := by
  obtain ⟨ev, ix', o2n, ub, h1, hd, hev, ht, hub, hlt, hno, hyes⟩ := toExplicit_vocab hv hs hord
  obtain ⟨t, ht⟩ := ht
  have hnd := (SubwordVocab.newWithBoundaries_eq_ok.mp hv).1
  have hwl : Vocab.wordsLen ev = ws.length := (c22_subword _ _ _ _ _ _ ev hev).2.1
  have hbound : ix'.bound = o2n.len := by
    have h2 := ht
    rw [newWithIndices_eq] at h2
    split at h2
    · cases h2; rfl
    · cases h2
  have hvl : Vocab.vocabLen ev = .ok (ws.length + o2n.len) := by
    obtain ⟨_, _, rfl⟩ := SubwordVocab.newWithBoundaries_eq_ok.mp hev
    have hlen : (indexMap ws).len = ws.length := (indexMap_len_iff ws).mpr hnd
    show (Res.ok ix'.bound >>= fun b => Res.ok ((indexMap ws).len + b)) = _
    rw [hlen, ← hbound]; rfl
  have hrows' : (shape e.storage).1 = ws.length + ub := by
    obtain ⟨_, _, hv'⟩ := SubwordVocab.newWithBoundaries_eq_ok.mp hv
    rw [hv'] at hrows
    have hlen : (indexMap ws).len = ws.length := (indexMap_len_iff ws).mpr hnd
    simp only [Vocab.vocabLen, hub, Res.ok_bind, Res.pure_eq, Res.ok.injEq, hlen] at hrows
    exact hrows.symm
  obtain ⟨mp, hmp, hml, hmw, hmn⟩ := explicitMapping_eq hd ws.length hord2
  obtain ⟨s', hs'⟩ := hmt mp (by
    intro j hj
    obtain ⟨k, hk, rfl⟩ := List.getElem_of_mem hj
    have hk' : mp[k]? = some mp[k] := List.getElem?_eq_getElem hk
    by_cases hkw : k < ws.length
    · rw [hmw k hkw] at hk'
      simp only [Option.some.injEq] at hk'
      omega
    · obtain ⟨i, hi⟩ := hd.surj (j := k - ws.length) (by omega)
      have := hmn i _ hi
      rw [Nat.add_sub_cancel' (by omega), hk'] at this
      simp only [Option.some.injEq] at this
      have := hlt i _ hi
      omega)
  obtain ⟨hsh, hrow, _⟩ := hmr mp s' hs'
  refine ⟨⟨none, s', ev, e.norms⟩, ix', o2n, ?_, rfl, rfl, hev, ⟨t, ht⟩, by rw [hsh], ?_, ?_, hno, hyes⟩
  · unfold Embeddings.toExplicit
    rw [h1]
    simp only [Res.ok_bind]
    rw [hvl]
    simp only [Res.ok_bind]
    rw [hwl, hmp]
    simp only [Res.ok_bind]
    rw [hs']
    simp only [Res.ok_bind]
    unfold Embeddings.newWithMaybeNorms
    rw [hvl]
    simp only [Res.ok_bind]
    rw [hsh]
    simp [hml, Res.assert]
  · intro i hi
    exact hrow i i (hmw i hi)
  · intro i j hij
    rw [Nat.add_comm ws.length i]
    exact hrow _ _ (hmn i j hij)

/-- C32: the conversion never panics or fails, and keeps words, their indices, embeddings and norms. -/
theorem c32_known (e : Embeddings T (SubwordVocab I) S F) (ws : List Str) (m M : Nat) (ix : I)
    (bow eow : Str) (hv : SubwordVocab.newWithBoundaries ws m M ix bow eow = .ok e.vocab) (h : Str → Nat)
    (hs : SingleIndex ix m M h) (hrows : Vocab.vocabLen e.vocab = .ok (shape e.storage).1)
    (hmr : MapsRows (T := S') e.storage) (hmt : MapsTotal (S' := S') e.storage)
    (order : List (Str × Nat) → List (Str × Nat)) (hord : ∀ l, (order l).Perm l)
    (order2 : List (Nat × Nat) → List (Nat × Nat)) (hord2 : ∀ l, (order2 l).Perm l) :
    ∃ e' : Embeddings T ExplicitSubwordVocab S' F, e.toExplicit order order2 = .ok e' ∧
      Vocab.words e'.vocab = Vocab.words e.vocab ∧ e'.norms = e.norms ∧ e'.dims = e.dims ∧
      ∀ w ∈ ws, Vocab.idx e'.vocab w = Vocab.idx e.vocab w ∧ e'.embedding w = e.embedding w ∧
        e'.embeddingWithNorm w = e.embeddingWithNorm w := by
  obtain ⟨e', ix', o2n, h1, hn, _, hev, _, hd, hw, _⟩ := toExplicit_eq (S' := S') e hv hs hrows hmr hmt order hord
    order2 hord2
  have a := c22_subword _ _ _ _ _ _ _ hv
  have b := c22_subword _ _ _ _ _ _ _ hev
  refine ⟨e', h1, by rw [a.1, b.1], hn, hd, fun w hwm => ?_⟩
  obtain ⟨i, hi, hiw⟩ := List.getElem_of_mem hwm
  have hi' : ws[i]? = some w := by rw [List.getElem?_eq_getElem hi, hiw]
  have e1 := (a.2.2 i w).mpr hi'
  have e2 := (b.2.2 i w).mpr hi'
  refine ⟨by rw [e1, e2], ?_, ?_⟩
  · unfold Embeddings.embedding
    rw [e1, e2]
    simp only [Res.ok_bind]
    rw [hw i hi]
  · unfold Embeddings.embeddingWithNorm
    rw [e1, e2]
    simp only [Res.ok_bind]
    rw [hw i hi]
    unfold Embeddings.normAt
    rw [hn]

/-- C72: after the conversion, the embedding of an unknown word is computed from those n-grams of the word between
`<` and `>` that occur in a vocabulary word between the old markers, with their old vectors; the norm returned with it
is that of their sum. -/
theorem c72_unknown (e : Embeddings T (SubwordVocab I) S F) (ws : List Str) (m M : Nat) (ix : I) (bow eow : Str)
    (hv : SubwordVocab.newWithBoundaries ws m M ix bow eow = .ok e.vocab) (h : Str → Nat)
    (hm : 1 ≤ m) (hM : m ≤ M)
    (hs : SingleIndex ix m M h) (hrows : Vocab.vocabLen e.vocab = .ok (shape e.storage).1)
    (hmr : MapsRows (T := S') e.storage) (hmt : MapsTotal (S' := S') e.storage)
    (hb : BatchIsRows e.storage) (hb' : ∀ s' : S', BatchIsRows s')
    (order : List (Str × Nat) → List (Str × Nat)) (hord : ∀ l, (order l).Perm l)
    (order2 : List (Nat × Nat) → List (Nat × Nat)) (hord2 : ∀ l, (order2 l).Perm l) :
    ∃ e' : Embeddings T ExplicitSubwordVocab S' F, e.toExplicit order order2 = .ok e' ∧
      ∀ w, w ∉ ws → ∀ gs, gs = sharedNGrams ws bow eow m M (bracketedNGrams ['<'] w ['>'] m M) →
        (gs = [] → e'.embedding w = .ok none ∧ e'.embeddingWithNorm w = .ok none) ∧
        (gs ≠ [] →
          e'.embedding w = (Storage.embeddings e.storage (gs.map fun g => ws.length + h g)).map
            (fun r => some (l2Normalize r.sumAxis0).1) ∧
          e'.embeddingWithNorm w = (Storage.embeddings e.storage (gs.map fun g => ws.length + h g)).map
            fun r => some (l2Normalize r.sumAxis0)) := by
  obtain ⟨e', ix', o2n, h1, hn, _, hev, hbuilt, hd, _, hg, hno, hyes⟩ :=
    toExplicit_eq (S' := S') e hv hs hrows hmr hmt order hord order2 hord2
  refine ⟨e', h1, fun w hw gs hgs => ?_⟩
  -- the new indices and the old ones name the same rows
  have hidx : (bracketedNGrams ['<'] w ['>'] m M).filterMap (fun g => (ix'.index.get g).map (ws.length + ·)) =
      gs.map fun g => ws.length + (o2n.get (h g)).getD 0 := by
    rw [hgs]; unfold sharedNGrams
    generalize bracketedNGrams ['<'] w ['>'] m M = l
    induction l with
    | nil => rfl
    | cons g l ih =>
      rw [List.filterMap_cons, List.filter_cons, ih]
      by_cases hg' : g ∈ ws.flatMap fun w => bracketedNGrams bow w eow m M
      · obtain ⟨j, hj, hj'⟩ := hyes g hg'
        rw [hj', if_pos (by simpa using hg'), List.map_cons, hj]
        rfl
      · rw [hno g hg', if_neg (by simpa using hg')]; rfl
  have hsub : ∀ g ∈ gs, g ∈ ws.flatMap fun w => bracketedNGrams bow w eow m M := by
    intro g hgg
    rw [hgs] at hgg
    simpa using (List.mem_filter.mp hgg).2
  have hrowsEq : (gs.map fun g => ws.length + (o2n.get (h g)).getD 0).map (Storage.embedding e'.storage) =
      (gs.map fun g => ws.length + h g).map (Storage.embedding e.storage) := by
    rw [List.map_map, List.map_map]
    apply List.map_congr_left
    intro g hgg
    obtain ⟨j, hj, _⟩ := hyes g (hsub g hgg)
    simp only [Function.comp_apply, hj, Option.getD_some]
    exact hg _ _ hj
  have hbatch : Storage.embeddings e'.storage (gs.map fun g => ws.length + (o2n.get (h g)).getD 0) =
      Storage.embeddings e.storage (gs.map fun g => ws.length + h g) := by
    have b1 := hb' e'.storage (gs.map fun g => ws.length + (o2n.get (h g)).getD 0)
    have b2 := hb (gs.map fun g => ws.length + h g)
    rw [hrowsEq, hd] at b1
    cases hr : Storage.embeddings e.storage (gs.map fun g => ws.length + h g) with
    | ok r => exact (b1.1 r).mpr ((b2.1 r).mp hr)
    | err x => exact absurd hr (b2.2 x)
    | panic =>
      cases hr' : Storage.embeddings e'.storage (gs.map fun g => ws.length + (o2n.get (h g)).getD 0) with
      | ok r =>
        have := (b2.1 r).mpr ((b1.1 r).mp hr')
        rw [hr] at this; cases this
      | err x => exact absurd hr' (b1.2 x)
      | panic => rfl
  have c25 := c25_explicit ix' (.inr ⟨_, _, hbuilt.choose_spec⟩) ws m M ['<'] ['>'] e'.vocab hev hm hM w hw
  have hngrams : ∀ g, g ∈ ix'.ngrams ↔ ∃ i, ix'.index.get g = some i := by
    intro g
    obtain ⟨t, ht⟩ := hbuilt
    rw [← (show ix'.index.keys = ix'.ngrams from ExplicitIndexer.Built.keys ⟨_, _, ht⟩)]
    cases hh : ix'.index.get g with
    | none => simpa using HMap.get_eq_none_iff.mp hh
    | some i =>
      simp only [Option.some.injEq, exists_eq', iff_true]
      apply Classical.byContradiction; intro hn
      rw [HMap.get_eq_none_iff.mpr hn] at hh; simp at hh
  have hnil : gs = [] → e'.embedding w = .ok none ∧ e'.embeddingWithNorm w = .ok none := by
    intro hnil
    have : Vocab.idx e'.vocab w = .ok none := c25.1 (by
      intro g hgm hgn
      obtain ⟨i, hi⟩ := (hngrams g).mp hgn
      by_cases hg' : g ∈ ws.flatMap fun w => bracketedNGrams bow w eow m M
      · have : g ∈ gs := by
          rw [hgs]; exact List.mem_filter.mpr ⟨hgm, by simpa using hg'⟩
        rw [hnil] at this; simp at this
      · rw [hno g hg'] at hi; cases hi)
    unfold Embeddings.embedding Embeddings.embeddingWithNorm
    rw [this]; exact ⟨rfl, rfl⟩
  have hcons : gs ≠ [] →
      e'.embedding w = (Storage.embeddings e.storage (gs.map fun g => ws.length + h g)).map
        (fun r => some (l2Normalize r.sumAxis0).1) ∧
      e'.embeddingWithNorm w = (Storage.embeddings e.storage (gs.map fun g => ws.length + h g)).map
        fun r => some (l2Normalize r.sumAxis0) := by
    intro hne
    obtain ⟨g, hgg⟩ := List.exists_mem_of_ne_nil gs hne
    obtain ⟨j, _, hj⟩ := hyes g (hsub g hgg)
    have hgb : g ∈ bracketedNGrams ['<'] w ['>'] m M := by
      rw [hgs] at hgg; exact (List.mem_filter.mp hgg).1
    obtain ⟨is, _, his, hise⟩ := c25.2 ⟨g, hgb, (hngrams g).mpr ⟨j, hj⟩⟩
    rw [hidx] at hise
    unfold Embeddings.embedding Embeddings.embeddingWithNorm
    rw [his]
    simp only [Res.ok_bind]
    rw [hise, hbatch]
    cases Storage.embeddings e.storage (gs.map fun g => ws.length + h g) <;> exact ⟨rfl, rfl⟩
  exact ⟨hnil, hcons⟩

/-- C33 (`_partial`: only for the default boundary markers; see `c33_markers_false`): the embedding of an unknown
word is computed from exactly those of its n-grams that occur in vocabulary words, with their old vectors; in
particular it is unchanged when all n-grams do. -/
theorem c33_unknown_partial (e : Embeddings T (SubwordVocab I) S F) (ws : List Str) (m M : Nat) (ix : I)
    (hv : SubwordVocab.newWithBoundaries ws m M ix ['<'] ['>'] = .ok e.vocab) (h : Str → Nat)
    (hm : 1 ≤ m) (hM : m ≤ M)
    (hs : SingleIndex ix m M h) (hrows : Vocab.vocabLen e.vocab = .ok (shape e.storage).1)
    (hmr : MapsRows (T := S') e.storage) (hmt : MapsTotal (S' := S') e.storage)
    (hb : BatchIsRows e.storage) (hb' : ∀ s' : S', BatchIsRows s')
    (order : List (Str × Nat) → List (Str × Nat)) (hord : ∀ l, (order l).Perm l)
    (order2 : List (Nat × Nat) → List (Nat × Nat)) (hord2 : ∀ l, (order2 l).Perm l) :
    ∃ e' : Embeddings T ExplicitSubwordVocab S' F, e.toExplicit order order2 = .ok e' ∧
      ∀ w, w ∉ ws → ∀ gs, gs = sharedNGrams ws ['<'] ['>'] m M (bracketedNGrams ['<'] w ['>'] m M) →
        (gs = [] → e'.embedding w = .ok none) ∧
        (gs ≠ [] → e'.embedding w = (Storage.embeddings e.storage (gs.map fun g => ws.length + h g)).map
          fun r => some (l2Normalize r.sumAxis0).1) ∧
        ((∀ g ∈ bracketedNGrams ['<'] w ['>'] m M, ∃ w' ∈ ws, g ∈ bracketedNGrams ['<'] w' ['>'] m M) →
          e'.embedding w = e.embedding w) := by
  obtain ⟨e', h1, hall⟩ := c72_unknown (S' := S') e ws m M ix ['<'] ['>'] hv h hm hM hs hrows hmr hmt hb hb' order hord
    order2 hord2
  refine ⟨e', h1, fun w hw gs hgs => ?_⟩
  obtain ⟨hnil, hcons⟩ := hall w hw gs hgs
  replace hnil := fun h => (hnil h).1
  replace hcons := fun h => (hcons h).1
  refine ⟨hnil, hcons, fun hall => ?_⟩
  have hgall : gs = bracketedNGrams ['<'] w ['>'] m M := by
    rw [hgs]
    apply List.filter_eq_self.mpr
    intro g hgm
    obtain ⟨w', hw', hgw'⟩ := hall g hgm
    simp only [decide_eq_true_eq]
    exact List.mem_flatMap.mpr ⟨w', hw', hgw'⟩
  have hold := single_idx_unknown hv hs hw
  rw [← hgall] at hold
  by_cases hne : gs = []
  · rw [hnil hne]
    unfold Embeddings.embedding
    rw [hold, if_pos hne]; rfl
  · rw [hcons hne]
    unfold Embeddings.embedding
    rw [hold, if_neg hne]
    simp only [Res.ok_bind]
    cases Storage.embeddings e.storage (gs.map fun g => ws.length + h g) <;> rfl

end

/-! ### The storages of the crate -/

theorem NdArray.mapsTotal {F : Type} (a : NdArray F) : MapsTotal (S' := NdArray F) a :=
  fun mapping h => ((c47_clone_array a).2 mapping).mpr h

theorem selectNorms_total {F : Type} {norms : Option (List F)} {mapping : List Nat} {n : Nat}
    (hn : ∀ ns, norms = some ns → ns.length = n) (h : ∀ j ∈ mapping, j < n) :
    ∃ r, selectNorms norms mapping = .ok r := by
  cases norms with
  | none => exact ⟨_, rfl⟩
  | some ns =>
    have hl := hn ns rfl
    obtain ⟨xs, hxs⟩ := mapM_ok_of (f := fun i => Res.unwrap ns[i]?) (l := mapping) (by
      intro j hj
      have := h j hj
      exact ⟨ns[j], by rw [List.getElem?_eq_getElem (by omega)]; rfl⟩)
    exact ⟨some xs, by unfold selectNorms; dsimp only; rw [hxs]; rfl⟩

theorem QuantizedArray.mapsTotal {F : Type} [Scalar F] {a : QuantizedArray F} (hw : a.WF) :
    MapsTotal (S' := QuantizedArray F) a := by
  intro mapping h
  have h : ∀ j ∈ mapping, j < a.codes.rows.length := h
  obtain ⟨rs, hrs⟩ := mapM_ok_of (f := a.codes.row) (l := mapping) (by
    intro j hj
    have := h j hj
    refine ⟨a.codes.rows[j], ?_⟩
    show Res.unwrap a.codes.rows[j]? = _
    rw [List.getElem?_eq_getElem this]; rfl)
  obtain ⟨ns, hns⟩ := selectNorms_total (norms := a.norms) (mapping := mapping) hw.norms h
  refine ⟨⟨a.quantizer, ⟨a.codes.cols, rs⟩, ns⟩, ?_⟩
  show (a.codes.select mapping >>= _) = _
  rw [select_eq, hrs]
  simp only [Res.map_ok, Res.ok_bind]
  rw [hns]; rfl

theorem UsableStorage.mapsTotal [Scalar F32] {s : StorageWrap} (h : UsableStorage s) :
    MapsTotal (S' := StorageWrap) s := by
  intro mapping hm
  cases s with
  | ndArray a =>
    obtain ⟨t, ht⟩ := NdArray.mapsTotal a mapping hm
    exact ⟨.ndArray t, map_eq_ok.mpr ⟨t, ht, rfl⟩⟩
  | quantized a =>
    obtain ⟨t, ht⟩ := QuantizedArray.mapsTotal (a := a) h.1 mapping hm
    exact ⟨.quantized t, map_eq_ok.mpr ⟨t, ht, rfl⟩⟩
  | mmapArray m =>
    obtain ⟨d, pos, p, hmm, hp⟩ := h
    have h59 := c59_partial d pos p m hmm hp
    obtain ⟨rs, hrs⟩ := mapM_ok_of (f := m.row) (l := mapping) (by
      intro j hj
      obtain ⟨v, hv, _⟩ := h59 j (hm j hj)
      exact ⟨v, hv⟩)
    have hcl : (cloneFromMapping m mapping : Res (NdArray F32)) = .ok ⟨⟨m.cols, rs⟩⟩ := by
      show ((mapping.mapM m.row).map _).map NdArray.mk = _
      rw [hrs]; rfl
    exact ⟨.ndArray _, map_eq_ok.mpr ⟨_, hcl, rfl⟩⟩
  | mmapQuantized m =>
    obtain ⟨d, pos, p, a, ha, hmm, hw, hc⟩ := h
    obtain ⟨m', hm', hsame, _, hclone, _⟩ := c21_quantized d pos p a ha
    rw [hmm] at hm'; cases hm'
    obtain ⟨t, ht⟩ := QuantizedArray.mapsTotal hw mapping (by
      intro j hj
      have := hm j hj
      rw [← hsame.1]; exact this)
    rw [← hclone] at ht
    exact ⟨.quantized t, map_eq_ok.mpr ⟨t, ht, rfl⟩⟩

/-- C32 for the wrapper types: `try_to_explicit` refuses vocabularies without buckets with an error; it succeeds
for usable embeddings with bucket or fastText vocabularies and keeps known words, their indices, embeddings and
norms. -/
theorem c32_wrap {T : Type} [Scalar F32] (e : Embeddings T VocabWrap StorageWrap F32)
    (order : List (Str × Nat) → List (Str × Nat)) (hord : ∀ l, (order l).Perm l)
    (order2 : List (Nat × Nat) → List (Nat × Nat)) (hord2 : ∀ l, (order2 l).Perm l) :
    (((∃ v, e.vocab = .simple v) ∨ (∃ v, e.vocab = .explicit v) ∨ ∃ v, e.vocab = .floret v) →
      e.tryToExplicit (S' := StorageWrap) order order2 = .err .conversion) ∧
    (((∃ v, e.vocab = .bucket v) ∨ ∃ v, e.vocab = .fastText v) → UsableVocab e.vocab → UsableStorage e.storage →
      Vocab.vocabLen e.vocab = .ok (shape e.storage).1 →
      ∃ e' : Embeddings T ExplicitSubwordVocab StorageWrap F32, e.tryToExplicit order order2 = .ok e' ∧
        Vocab.words e'.vocab = Vocab.words e.vocab ∧ e'.norms = e.norms ∧ e'.dims = e.dims ∧
        ∀ w ∈ Vocab.words e.vocab, Vocab.idx e'.vocab w = Vocab.idx e.vocab w ∧ e'.embedding w = e.embedding w ∧
          e'.embeddingWithNorm w = e.embeddingWithNorm w) := by
  constructor
  · unfold Embeddings.tryToExplicit
    rintro (⟨v, h⟩ | ⟨v, h⟩ | ⟨v, h⟩) <;> rw [h]
  · obtain ⟨md, st, vo, ns⟩ := e
    dsimp only
    rintro (⟨v, rfl⟩ | ⟨v, rfl⟩) hu hs hrows
    · obtain ⟨e, ix, ws, m, M, bow, eow, h1, h2, h3, h4⟩ := hu
      have h := c32_known (S' := StorageWrap) (⟨md, st, v, ns⟩ : Embeddings T _ _ F32) ws m M ix bow eow h2 _
        (HashIndexer.singleIndex h1 h3 h4) hrows (c47_clone_wrap st) hs.mapsTotal order hord order2 hord2
      obtain ⟨e', he, ha, hb, hc, hd⟩ := h
      exact ⟨e', he, ha, hb, hc, fun w hw => hd w ((c22_subword _ _ _ _ _ _ _ h2).1 ▸ hw)⟩
    · obtain ⟨b, ix, ws, m, M, bow, eow, h1, h0, h2, h3, h4⟩ := hu
      have h := c32_known (S' := StorageWrap) (⟨md, st, v, ns⟩ : Embeddings T _ _ F32) ws m M ix bow eow h2 _
        (FastTextIndexer.singleIndex h1 h0 h3 h4) hrows (c47_clone_wrap st) hs.mapsTotal order hord order2 hord2
      obtain ⟨e', he, ha, hb, hc, hd⟩ := h
      exact ⟨e', he, ha, hb, hc, fun w hw => hd w ((c22_subword _ _ _ _ _ _ _ h2).1 ▸ hw)⟩

attribute [local instance] exampleScalar in
/-- The hypotheses of `c32_wrap` (and, through it, of `c32_known`) hold for a concrete case, whose conversion
finds four distinct n-gram indices. -/
example : (∃ v, exampleLookup.vocab = .bucket v) ∧ UsableVocab exampleLookup.vocab ∧
    UsableStorage exampleLookup.storage ∧
    Vocab.vocabLen exampleLookup.vocab = .ok (shape exampleLookup.storage).1 :=
  ⟨⟨_, rfl⟩, exampleVocab_usable, exampleStorage_usable, rfl⟩

attribute [local instance] exampleScalar in
/-- `c33_unknown_partial` applies to a concrete case, where all n-grams of the unknown word `b` occur in `bb`. -/
example : ∃ (ix : HashIndexer) (v : BucketSubwordVocab)
    (e' : Embeddings Str ExplicitSubwordVocab (NdArray F32) F32), HashIndexer.new 2 = .ok ix ∧
    SubwordVocab.newWithBoundaries [['a'], ['b', 'b']] 2 2 ix ['<'] ['>'] = .ok v ∧
    (⟨none, ⟨⟨1, [[1], [2], [3], [4], [5], [6]]⟩⟩, v, none⟩ :
      Embeddings Str _ (NdArray F32) F32).toExplicit id id = .ok e' ∧
    (∀ g ∈ bracketedNGrams ['<'] ['b'] ['>'] 2 2, ∃ w' ∈ [['a'], ['b', 'b']],
      g ∈ bracketedNGrams ['<'] w' ['>'] 2 2) := by
  have hix : HashIndexer.new 2 = .ok ⟨2, 3⟩ := rfl
  have hv : SubwordVocab.newWithBoundaries [['a'], ['b', 'b']] 2 2 (⟨2, 3⟩ : HashIndexer) ['<'] ['>'] =
    .ok ⟨['<'], ['>'], ⟨2, 3⟩, indexMap [['a'], ['b', 'b']], [['a'], ['b', 'b']], 2, 2⟩ := rfl
  obtain ⟨e', h, _⟩ := c33_unknown_partial (S' := NdArray F32)
    (⟨none, ⟨⟨1, [[1], [2], [3], [4], [5], [6]]⟩⟩, _, none⟩ : Embeddings Str _ (NdArray F32) F32)
    [['a'], ['b', 'b']] 2 2 _ hv _ (by decide) (by decide) (HashIndexer.singleIndex hix (by decide) (by decide))
    rfl (c47_clone_array _).1 (NdArray.mapsTotal _) (c47_array _) (fun s => c47_array s)
    id (fun _ => List.Perm.refl _) id (fun _ => List.Perm.refl _)
  exact ⟨_, _, e', hix, hv, h, by decide⟩

/-- Embeddings with one bucket vocabulary over `[`, `]` as boundary markers. -/
def exampleMarkers : Embeddings Str BucketSubwordVocab (NdArray F32) F32 :=
  ⟨none, ⟨⟨1, [[1], [2], [3], [4], [5], [6]]⟩⟩,
    match (HashIndexer.new 2 : Res HashIndexer) with
    | .ok ix => match (SubwordVocab.newWithBoundaries [['a'], ['b', 'b']] 2 2 ix ['['] [']'] : Res BucketSubwordVocab) with
      | .ok v => v
      | _ => ⟨[], [], ix, HMap.empty, [], 0, 0⟩
    | _ => ⟨[], [], ⟨0, 0⟩, HMap.empty, [], 0, 0⟩,
    none⟩

attribute [local instance] exampleScalar in
/-- C33 is false for other boundary markers: the n-grams of the unknown word `b` all occur in the vocabulary word
`bb`, but after the conversion `b` has no embedding any more, because the converted vocabulary uses `<` and `>`. -/
theorem c33_markers_false :
    (∃ ix, HashIndexer.new 2 = .ok ix ∧
      SubwordVocab.newWithBoundaries [['a'], ['b', 'b']] 2 2 ix ['['] [']'] = .ok exampleMarkers.vocab) ∧
    Vocab.vocabLen exampleMarkers.vocab = .ok (shape exampleMarkers.storage).1 ∧
    (∀ g ∈ bracketedNGrams ['['] ['b'] [']'] 2 2, ∃ w' ∈ [['a'], ['b', 'b']],
      g ∈ bracketedNGrams ['['] w' [']'] 2 2) ∧
    (∃ v, exampleMarkers.embedding ['b'] = .ok (some v)) ∧
    ∃ e' : Embeddings Str ExplicitSubwordVocab (NdArray F32) F32, exampleMarkers.toExplicit id id = .ok e' ∧
      e'.embedding ['b'] = .ok none :=
  ⟨⟨_, rfl, rfl⟩, rfl, by decide, ⟨_, rfl⟩, _, rfl, by decide +kernel⟩

/-- C32, the excluded parameters: with `min_n = 0` or `min_n > max_n` the conversion panics as soon as there is
a word. -/
theorem c32_bad_range {I : Type} [BucketIndexer I] (ws : List Str) (m M : Nat) (ix : I) (bow eow : Str)
    (v : SubwordVocab I) (hv : SubwordVocab.newWithBoundaries ws m M ix bow eow = .ok v)
    (h : m = 0 ∨ M < m) (hne : ws ≠ []) (order : List (Str × Nat) → List (Str × Nat)) :
    toExplicit order v = .panic := by
  obtain ⟨_, _, rfl⟩ := SubwordVocab.newWithBoundaries_eq_ok.mp hv
  cases ws with
  | nil => exact absurd rfl hne
  | cons w ws =>
    unfold toExplicit toExplicitIndex
    simp only [List.foldlM_cons, subwordIndicesWithNgrams, ngrams_panic _ m M h]
    rfl

/-- Hypotheses of `c32_bad_range`. -/
example := c32_bad_range [['a']] 0 2 (⟨2, 3⟩ : HashIndexer) ['<'] ['>'] _ rfl (.inl rfl) (by decide) id

example : ∃ ix v, HashIndexer.new 2 = .ok ix ∧
    SubwordVocab.newWithBoundaries [['a']] 0 2 ix ['<'] ['>'] = .ok v := ⟨_, _, rfl, rfl⟩


theorem toExplicitStep_fold_err (l : List (Str × List Nat)) (h : ∃ p ∈ l, 2 ≤ p.2.length) (m : HMap Str Nat) :
    l.foldlM toExplicitStep m = .err .ngramConversion := by
  induction l generalizing m with
  | nil => simp at h
  | cons p l ih =>
    rw [List.foldlM_cons]
    obtain ⟨g, is⟩ := p
    match is with
    | [] =>
      simp only [toExplicitStep, Res.ok_bind]
      exact ih (by simpa using h) m
    | [i] =>
      simp only [toExplicitStep, Res.ok_bind]
      exact ih (by simpa using h) _
    | _ :: _ :: _ => rfl

theorem toExplicitStep_fold_ok (l : List (Str × List Nat)) (h : ∀ p ∈ l, p.2.length ≤ 1) (m : HMap Str Nat) :
    ∃ m', l.foldlM toExplicitStep m = .ok m' := by
  induction l generalizing m with
  | nil => exact ⟨m, rfl⟩
  | cons p l ih =>
    rw [List.foldlM_cons]
    obtain ⟨g, is⟩ := p
    match is with
    | [] => exact ih (fun p hp => h p (by simp [hp])) m
    | [i] => exact ih (fun p hp => h p (by simp [hp])) _
    | i :: j :: is => exact absurd (h (g, i :: j :: is) (by simp)) (by simp)

/-- C32, other indexers: a bucket indexer that gives some n-gram of a vocabulary word more than one index makes the
conversion return the n-gram conversion error (`l w` are the n-grams of the word `w` with their indices). -/
theorem c32_multiple {I : Type} [BucketIndexer I] (v : SubwordVocab I) (l : Str → List (Str × List Nat))
    (hl : ∀ w ∈ v.words, subwordIndicesWithNgrams v.indexer (v.bow ++ w ++ v.eow) v.minN v.maxN = .ok (l w))
    (h : ∃ w ∈ v.words, ∃ p ∈ l w, 2 ≤ p.2.length) (order : List (Str × Nat) → List (Str × Nat)) :
    toExplicit order v = .err .ngramConversion := by
  have key : ∀ (ws : List Str), (∀ w ∈ ws, w ∈ v.words) → (∃ w ∈ ws, ∃ p ∈ l w, 2 ≤ p.2.length) →
      ∀ m : HMap Str Nat, ws.foldlM (fun m w => do
        let l ← subwordIndicesWithNgrams v.indexer (v.bracket w) v.minN v.maxN
        l.foldlM toExplicitStep m) m = .err .ngramConversion := by
    intro ws
    induction ws with
    | nil => intro _ h; simp at h
    | cons w ws ih =>
      intro hsub h m
      rw [List.foldlM_cons]
      have := hl w (hsub w (by simp))
      rw [show v.bracket w = v.bow ++ w ++ v.eow from rfl, this]
      simp only [Res.ok_bind]
      by_cases hw : ∃ p ∈ l w, 2 ≤ p.2.length
      · rw [toExplicitStep_fold_err _ hw]; rfl
      · obtain ⟨m', hm'⟩ := toExplicitStep_fold_ok (l w) (fun p hp => by
          rcases Nat.lt_or_ge 1 p.2.length with h | h
          · exact absurd ⟨p, hp, h⟩ hw
          · exact h) m
        rw [hm']
        refine ih (fun x hx => hsub x (by simp [hx])) ?_ m'
        obtain ⟨x, hx, hp⟩ := h
        rcases List.mem_cons.mp hx with rfl | hx
        · exact absurd hp hw
        · exact ⟨x, hx, hp⟩
  unfold toExplicit toExplicitIndex
  rw [key v.words (fun _ h => h) h]
  rfl

/-- An indexer that gives every n-gram the indices 0 and 1. -/
@[reducible] def exampleTwoIndices : BucketIndexer Unit where
  indexNgram _ _ := .ok [0, 1]
  upperBound _ := .ok 2
  infallible _ := true
  scope _ := .substrings
  newBuckets _ := .ok ()
  buckets _ := 2

attribute [local instance] exampleTwoIndices in
example : ∃ v : SubwordVocab Unit, SubwordVocab.new [['a']] 3 3 () = .ok v ∧
    ∃ l, subwordIndicesWithNgrams v.indexer (v.bow ++ ['a'] ++ v.eow) v.minN v.maxN = .ok l ∧
      ∃ p ∈ l, 2 ≤ p.2.length :=
  ⟨_, rfl, [(['<', 'a', '>'], [0, 1])], by decide +kernel, (['<', 'a', '>'], [0, 1]), by simp, by simp⟩

/-- `c32_multiple` applied to it. -/
example := @c32_multiple Unit exampleTwoIndices ⟨['<'], ['>'], (), indexMap [['a']], [['a']], 3, 3⟩
  (fun _ => [(['<', 'a', '>'], [0, 1])]) (by intro w hw; cases List.mem_singleton.mp hw; decide +kernel)
  ⟨['a'], by simp, _, List.mem_singleton.mpr rfl, by decide⟩ id


attribute [local instance] exampleScalar in
/-- `c72_unknown` applies to a concrete case with other markers. -/
example : ∃ (e' : Embeddings Str ExplicitSubwordVocab (NdArray F32) F32), exampleMarkers.toExplicit id id = .ok e' ∧
    sharedNGrams [['a'], ['b', 'b']] ['['] [']'] 2 2 (bracketedNGrams ['<'] ['b', 'b', 'c'] ['>'] 2 2) = [['b', 'b']] := by
  have hix : HashIndexer.new 2 = .ok ⟨2, 3⟩ := rfl
  have hv : SubwordVocab.newWithBoundaries [['a'], ['b', 'b']] 2 2 (⟨2, 3⟩ : HashIndexer) ['['] [']'] =
    .ok exampleMarkers.vocab := rfl
  obtain ⟨e', h, _⟩ := c72_unknown (S' := NdArray F32) exampleMarkers
    [['a'], ['b', 'b']] 2 2 _ ['['] [']'] hv _ (by decide) (by decide)
    (HashIndexer.singleIndex hix (by decide) (by decide))
    rfl (c47_clone_array _).1 (NdArray.mapsTotal _) (c47_array _) (fun s => c47_array s)
    id (fun _ => List.Perm.refl _) id (fun _ => List.Perm.refl _)
  exact ⟨e', h, by decide⟩

end FF
