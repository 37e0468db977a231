import Verif.Props.Similarity

/-!
# How the results of similarity queries are related to each other (C99)

Queries with different limits, with more words to skip, and of embeddings whose words are in another order.
-/

namespace FF

open Res Embeddings

section
variable {F : Type} [ScalarOrd F] [LawfulScalarOrd F]

omit [LawfulScalarOrd F] in
theorem TopResults.take {limit k : Nat} {cs r : List (WordSim F)} (h : TopResults limit cs r) (hk : k ≤ limit) :
    TopResults k cs (r.take k) := by
  have hsub : (r.take k).Sublist r := List.take_sublist k r
  refine ⟨?_, h.sorted.sublist hsub, fun a ha => h.mem a (hsub.subset ha), h.nodup.sublist (hsub.map _), ?_⟩
  · rw [List.length_take, h.length]; omega
  · intro c hc hcr a ha
    rcases Classical.em (c ∈ r) with hm | hm
    · have hs := h.sorted
      rw [← List.take_append_drop k r] at hm hs
      rcases List.mem_append.mp hm with hm | hm
      · exact absurd hm hcr
      · exact (List.pairwise_append.mp hs).2.2 a ha c hm
    · exact h.rest c hc hm a (hsub.subset ha)

omit [LawfulScalarOrd F] in
theorem TopResults.perm {limit : Nat} {cs cs' r : List (WordSim F)} (h : TopResults limit cs r) (hp : cs.Perm cs') :
    TopResults limit cs' r :=
  ⟨by rw [h.length, hp.length_eq], h.sorted, fun a ha => hp.mem_iff.mp (h.mem a ha), h.nodup,
    fun c hc => h.rest c (hp.mem_iff.mpr hc)⟩

omit [LawfulScalarOrd F] in
/-- Candidates left out: enough results, without them, are the best of the other candidates. -/
theorem TopResults.filter {limit n : Nat} {cs r : List (WordSim F)} (h : TopResults (limit + n) cs r)
    (p : WordSim F → Bool) (hn : (cs.filter fun c => !p c).length ≤ n) :
    TopResults limit (cs.filter p) ((r.filter p).take limit) := by
  have hsub : ((r.filter p).take limit).Sublist r := (List.take_sublist _ _).trans List.filter_sublist
  have hmem : ∀ a ∈ (r.filter p).take limit, a ∈ r ∧ p a = true := fun a ha =>
    List.mem_filter.mp (List.mem_of_mem_take ha)
  have hlen : (cs.filter p).length + (cs.filter fun c => !p c).length = cs.length := by
    have := (List.filter_append_perm p cs).length_eq
    simpa using this
  have hlen' : (r.filter p).length + (r.filter fun c => !p c).length = r.length := by
    have := (List.filter_append_perm p r).length_eq
    simpa using this
  have hno : (r.filter fun c => !p c).length ≤ (cs.filter fun c => !p c).length :=
    List.Nodup.length_le_of_subset (h.nodup'.sublist List.filter_sublist) fun a ha => by
      obtain ⟨h1, h2⟩ := List.mem_filter.mp ha
      exact List.mem_filter.mpr ⟨h.mem a h1, h2⟩
  have hyes : (r.filter p).length ≤ (cs.filter p).length :=
    List.Nodup.length_le_of_subset (h.nodup'.sublist List.filter_sublist) fun a ha => by
      obtain ⟨h1, h2⟩ := List.mem_filter.mp ha
      exact List.mem_filter.mpr ⟨h.mem a h1, h2⟩
  have hl := h.length
  refine ⟨?_, h.sorted.sublist hsub, fun a ha => ?_, h.nodup.sublist (hsub.map _), ?_⟩
  · rw [List.length_take]
    omega
  · exact List.mem_filter.mpr ⟨h.mem a (hmem a ha).1, (hmem a ha).2⟩
  · intro c hcc hcr a ha
    obtain ⟨h1, h2⟩ := List.mem_filter.mp hcc
    rcases Classical.em (c ∈ r) with hm | hm
    · have hs : (r.filter p).Pairwise RanksBefore := h.sorted.sublist List.filter_sublist
      have hm' : c ∈ r.filter p := List.mem_filter.mpr ⟨hm, h2⟩
      rw [← List.take_append_drop limit (r.filter p)] at hm' hs
      rcases List.mem_append.mp hm' with hm' | hm'
      · exact absurd hm' hcr
      · exact (List.pairwise_append.mp hs).2.2 a ha c hm'
    · exact h.rest c h1 hm a (hmem a ha).1

end

section
variable {T T' V V' S S' F : Type} [Vocab V] [Vocab V'] [Storage S F] [StorageView S F] [Storage S' F] [StorageView S' F]
  [Scalar F] [ScalarOrd F] [LawfulScalarOrd F]

/-- What is assumed of the vocabulary: its words are distinct, and it knows their number. Every vocabulary that a
constructor returns fulfils it (`UsableVocab.words`). -/
structure WordsOk (v : V) : Prop where
  len : Vocab.wordsLen v = (Vocab.words v).length
  nodup : (Vocab.words v).Nodup

omit [Storage S F] [LawfulScalarOrd F] in
theorem similarity_view {e : Embeddings T V S F} {q : List F} {skip : List Str} {limit : Nat} {bs : Option Nat}
    {r : List (WordSim F)} (h : e.similarity q skip limit bs = .ok r) : ∃ m, view e.storage = .ok m := by
  unfold similarity at h
  obtain ⟨_, _, h⟩ := Res.bind_eq_ok.mp h
  obtain ⟨m, hm, _⟩ := Res.bind_eq_ok.mp h
  exact ⟨m, hm⟩

omit [Storage S F] in
/-- What a successful query says about the embeddings and the result. -/
theorem similarity_ok_top {e : Embeddings T V S F} (hv : WordsOk e.vocab) {q : List F} {skip : List Str} {limit : Nat}
    {bs : Option Nat} {r : List (WordSim F)} (h1 : 1 ≤ limit) (h : e.similarity q skip limit bs = .ok r) :
    ∃ m, view e.storage = .ok m ∧ 24 * limit ≤ isizeMax ∧ (Vocab.words e.vocab).length ≤ m.nrows ∧
      bs.getD (Vocab.words e.vocab).length ≠ 0 ∧ (q.length = m.cols ∨ Vocab.words e.vocab = []) ∧
      (∀ c ∈ candidates (Vocab.words e.vocab) m.rows q skip, ScalarOrd.isNan c.similarity = false) ∧
      TopResults limit (candidates (Vocab.words e.vocab) m.rows q skip) r := by
  obtain ⟨m, hm⟩ := similarity_view h
  obtain ⟨a1, a2, a3, a4, a5, -⟩ := (similarity_ok_iff e q skip limit bs m hm hv.len).1.mp ⟨r, h⟩
  refine ⟨m, hm, a1, a2, a3, a4, a5, ?_⟩
  rcases Classical.em (q.length = m.cols) with hq | hq
  · obtain ⟨r', h2, h3⟩ := similarity_top e ⟨hm, hv.len, hv.nodup, a2, by unfold BatchOk; rw [hv.len]; exact a3, h1, a1⟩ q skip hq a5
    rw [h] at h2
    cases h2
    exact h3
  · have hw := a4.resolve_left hq
    have hr : r = [] := by
      cases r with
      | nil => rfl
      | cons a r =>
        have := (similarity_not_skip e q skip limit bs _ h a (by simp)).2
        rw [hw] at this
        cases this
    subst hr
    rw [hw]
    exact ⟨by simp [candidates], .nil, by simp, by simp, by simp [candidates]⟩

omit [Storage S F] in
theorem similarity_limit {e : Embeddings T V S F} (hv : WordsOk e.vocab) {q : List F} {skip : List Str} {limit k : Nat}
    {bs : Option Nat} {r : List (WordSim F)} (h : e.similarity q skip limit bs = .ok r) (h1 : 1 ≤ k) (hk : k ≤ limit) :
    e.similarity q skip k bs = .ok (r.take k) := by
  obtain ⟨m, hm, a1, a2, a3, a4, a5, a6⟩ := similarity_ok_top hv (Nat.le_trans h1 hk) h
  obtain ⟨r', hr'⟩ := (similarity_ok_iff e q skip k bs m hm hv.len).1.mpr ⟨by omega, a2, a3, a4, a5, by omega⟩
  obtain ⟨m', hm', -, -, -, -, -, b6⟩ := similarity_ok_top hv h1 hr'
  rw [hm] at hm'
  cases hm'
  rw [hr', b6.unique (a6.take hk)]

omit [Storage S F] in
theorem similarity_skip {e : Embeddings T V S F} (hv : WordsOk e.vocab) {q : List F} {skip more : List Str} {limit n : Nat}
    {bs : Option Nat} {r : List (WordSim F)} (h1 : 1 ≤ limit) (hmore : more.length ≤ n)
    (h : e.similarity q skip (limit + n) bs = .ok r) :
    e.similarity q (skip ++ more) limit bs = .ok ((r.filter fun a => a.word ∉ more).take limit) := by
  obtain ⟨m, hm, a1, a2, a3, a4, a5, a6⟩ := similarity_ok_top hv (by omega) h
  have hcand : candidates (Vocab.words e.vocab) m.rows q (skip ++ more) =
      (candidates (Vocab.words e.vocab) m.rows q skip).filter fun a => a.word ∉ more := by
    unfold candidates
    rw [List.filter_map, List.filter_filter]
    congr 1
    apply List.filter_congr
    intro p _
    simp [Bool.and_comm]
  obtain ⟨r', hr'⟩ := (similarity_ok_iff e q (skip ++ more) limit bs m hm hv.len).1.mpr ⟨by omega, a2, a3, a4, by
    intro c hc
    rw [hcand] at hc
    exact a5 c (List.mem_filter.mp hc).1, by omega⟩
  obtain ⟨m', hm', -, -, -, -, -, b6⟩ := similarity_ok_top hv h1 hr'
  rw [hm] at hm'
  cases hm'
  rw [hcand] at b6
  have hnd := candidates_words_nodup hv.nodup m.rows q skip
  rw [hr', b6.unique (a6.filter _ ?_)]
  have h2 : (((candidates (Vocab.words e.vocab) m.rows q skip).filter fun c => !decide (c.word ∉ more)).map (·.word)).length ≤
      more.length :=
    List.Nodup.length_le_of_subset (hnd.sublist (List.filter_sublist.map _)) fun w hw => by
      obtain ⟨c, hc, rfl⟩ := List.mem_map.mp hw
      simpa using (List.mem_filter.mp hc).2
  refine Nat.le_trans ?_ hmore
  simpa using h2

omit [Storage S F] [Storage S' F] in
theorem similarity_order {e : Embeddings T V S F} {e' : Embeddings T' V' S' F} (hv : WordsOk e.vocab) (hv' : WordsOk e'.vocab)
    {m m' : Mat F} (hm : view e.storage = .ok m) (hm' : view e'.storage = .ok m')
    (hp : ((Vocab.words e.vocab).zip m.rows).Perm ((Vocab.words e'.vocab).zip m'.rows)) (hc : m.cols = m'.cols)
    (hrows : (Vocab.words e'.vocab).length ≤ m'.nrows) {q : List F} {skip : List Str} {limit : Nat}
    {bs bs' : Option Nat} (hbs : bs'.getD (Vocab.words e'.vocab).length ≠ 0) (h1 : 1 ≤ limit)
    {r : List (WordSim F)} (h : e.similarity q skip limit bs = .ok r) :
    e'.similarity q skip limit bs' = .ok r := by
  obtain ⟨m1, hm1, a1, a2, a3, a4, a5, a6⟩ := similarity_ok_top hv h1 h
  rw [hm] at hm1
  cases hm1
  have hcp : (candidates (Vocab.words e.vocab) m.rows q skip).Perm (candidates (Vocab.words e'.vocab) m'.rows q skip) :=
    (hp.filter _).map _
  obtain ⟨r', hr'⟩ := (similarity_ok_iff e' q skip limit bs' m' hm' hv'.len).1.mpr ⟨a1, hrows, hbs, by
    rcases a4 with a4 | a4
    · exact .inl (by rw [a4, hc])
    · refine .inr ?_
      have := hp.length_eq
      rw [a4, List.length_zip, List.length_zip] at this
      unfold Mat.nrows at hrows
      exact List.length_eq_zero_iff.mp (by simp at this; omega), fun c hc' => a5 c (hcp.mem_iff.mpr hc'), by omega⟩
  obtain ⟨m2, hm2, -, -, -, -, -, b6⟩ := similarity_ok_top hv' h1 hr'
  rw [hm'] at hm2
  cases hm2
  rw [hr', b6.unique (a6.perm hcp)]

/-- **C99** (limits). If a query succeeds with some limit, the query with a smaller limit returns the beginning of its
results. -/
theorem c99_limit (e : Embeddings T V S F) (hv : WordsOk e.vocab) (limit k : Nat) (h1 : 1 ≤ k) (hk : k ≤ limit)
    (bs : Option Nat) (r : List (WordSim F)) :
    (∀ w, e.wordSimilarity w limit bs = .ok (some r) → e.wordSimilarity w k bs = .ok (some (r.take k))) ∧
    (∀ q skip, e.embeddingSimilarityMasked q limit skip bs = .ok (some r) →
      e.embeddingSimilarityMasked q k skip bs = .ok (some (r.take k))) ∧
    (∀ q, e.embeddingSimilarity q limit bs = .ok (some r) → e.embeddingSimilarity q k bs = .ok (some (r.take k))) ∧
    (∀ x y z r1 r2 r3, e.analogyMasked x y z r1 r2 r3 limit bs = .ok (.ok r) →
      e.analogyMasked x y z r1 r2 r3 k bs = .ok (.ok (r.take k))) ∧
    (∀ x y z, e.analogy x y z limit bs = .ok (.ok r) → e.analogy x y z k bs = .ok (.ok (r.take k))) := by
  have hm : ∀ q skip, e.embeddingSimilarityMasked q limit skip bs = .ok (some r) →
      e.embeddingSimilarityMasked q k skip bs = .ok (some (r.take k)) := by
    intro q skip h
    unfold embeddingSimilarityMasked at h ⊢
    obtain ⟨r', h2, h⟩ := Res.bind_eq_ok.mp h
    cases h
    rw [similarity_limit hv h2 h1 hk]
    rfl
  have ha : ∀ x y z r1 r2 r3, e.analogyMasked x y z r1 r2 r3 limit bs = .ok (.ok r) →
      e.analogyMasked x y z r1 r2 r3 k bs = .ok (.ok (r.take k)) := by
    intro x y z r1 r2 r3 h
    unfold analogyMasked at h ⊢
    obtain ⟨o, h2, h⟩ := Res.bind_eq_ok.mp h
    rw [h2, Res.ok_bind]
    cases o with
    | error p => cases h
    | ok vs =>
      obtain ⟨v1, v2, v3⟩ := vs
      dsimp only at h ⊢
      obtain ⟨r', h3, h⟩ := Res.bind_eq_ok.mp h
      cases h
      rw [similarity_limit hv h3 h1 hk]
      rfl
  refine ⟨fun w h => ?_, hm, fun q h => hm q [] h, ha, fun x y z h => ha x y z true true true h⟩
  unfold wordSimilarity at h ⊢
  obtain ⟨o, h2, h⟩ := Res.bind_eq_ok.mp h
  rw [h2, Res.ok_bind]
  cases o with
  | none => cases h
  | some q =>
    dsimp only at h ⊢
    obtain ⟨r', h3, h⟩ := Res.bind_eq_ok.mp h
    cases h
    rw [similarity_limit hv h3 h1 hk]
    rfl

omit [Storage S F] in
/-- **C99** (skipping). Skipping more words is leaving them out of the results of a query with a limit that is larger by their
number. -/
theorem c99_skip (e : Embeddings T V S F) (hv : WordsOk e.vocab) (limit : Nat) (h1 : 1 ≤ limit) (skip more : List Str)
    (bs : Option Nat) (q : List F) (r : List (WordSim F))
    (h : e.embeddingSimilarityMasked q (limit + more.length) skip bs = .ok (some r)) :
    e.embeddingSimilarityMasked q limit (skip ++ more) bs = .ok (some ((r.filter fun a => a.word ∉ more).take limit)) := by
  unfold embeddingSimilarityMasked at h ⊢
  obtain ⟨r', h2, h⟩ := Res.bind_eq_ok.mp h
  cases h
  rw [similarity_skip hv h1 (Nat.le_refl _) h2]
  rfl

/-- **C99** (masks of analogies). Excluding the words of the question from the answers of an analogy is leaving them out of the answers
to a query that excludes none of them, with a limit larger by three. -/
theorem c99_mask (e : Embeddings T V S F) (hv : WordsOk e.vocab) (limit : Nat) (h1 : 1 ≤ limit) (bs : Option Nat) (x y z : Str)
    (r1 r2 r3 : Bool) (r : List (WordSim F)) (h : e.analogyMasked x y z false false false (limit + 3) bs = .ok (.ok r)) :
    e.analogyMasked x y z r1 r2 r3 limit bs = .ok (.ok ((r.filter fun a =>
      !(r1 && a.word == x || r2 && a.word == y || r3 && a.word == z)).take limit)) := by
  unfold analogyMasked at h ⊢
  obtain ⟨o, h2, h⟩ := Res.bind_eq_ok.mp h
  rw [h2, Res.ok_bind]
  cases o with
  | error p => cases h
  | ok vs =>
    obtain ⟨v1, v2, v3⟩ := vs
    dsimp only at h ⊢
    obtain ⟨r', h3, h⟩ := Res.bind_eq_ok.mp h
    cases h
    have hlen : (([(x, r1), (y, r2), (z, r3)].filter (·.2)).map (·.1)).length ≤ 3 := by
      cases r1 <;> cases r2 <;> cases r3 <;> simp
    have h3' : e.similarity (l2Normalize (List.zipWith Scalar.add (List.zipWith Scalar.sub v2 v1) v3)).1 [] (limit + 3) bs = .ok r := h3
    have h5 := similarity_skip hv h1 hlen h3'
    rw [List.nil_append] at h5
    rw [h5, Res.ok_bind]
    congr 4
    funext a
    rw [Bool.eq_iff_iff]
    cases r1 <;> cases r2 <;> cases r3 <;> simp [and_assoc]

/-- **C99** (order of the words). Embeddings with the same words and vectors in any order, with any storage and any batch sizes, give
the same results. -/
theorem c99_order (e : Embeddings T V S F) (e' : Embeddings T' V' S' F) (hv : WordsOk e.vocab) (hv' : WordsOk e'.vocab)
    (m m' : Mat F) (hm : view e.storage = .ok m) (hm' : view e'.storage = .ok m')
    (hp : ((Vocab.words e.vocab).zip m.rows).Perm ((Vocab.words e'.vocab).zip m'.rows)) (hc : m.cols = m'.cols)
    (hrows : (Vocab.words e'.vocab).length ≤ m'.nrows) (limit : Nat) (h1 : 1 ≤ limit) (bs bs' : Option Nat)
    (hbs : bs'.getD (Vocab.words e'.vocab).length ≠ 0) (r : List (WordSim F)) :
    (∀ q skip, e.embeddingSimilarityMasked q limit skip bs = .ok (some r) →
      e'.embeddingSimilarityMasked q limit skip bs' = .ok (some r)) ∧
    (∀ w, e'.embedding w = e.embedding w → e.wordSimilarity w limit bs = .ok (some r) →
      e'.wordSimilarity w limit bs' = .ok (some r)) ∧
    (∀ x y z r1 r2 r3, (∀ w ∈ [x, y, z], e'.embedding w = e.embedding w) →
      e.analogyMasked x y z r1 r2 r3 limit bs = .ok (.ok r) → e'.analogyMasked x y z r1 r2 r3 limit bs' = .ok (.ok r)) := by
  refine ⟨fun q skip h => ?_, fun w he h => ?_, fun x y z r1 r2 r3 he h => ?_⟩
  · unfold embeddingSimilarityMasked at h ⊢
    obtain ⟨r', h2, h⟩ := Res.bind_eq_ok.mp h
    cases h
    rw [similarity_order hv hv' hm hm' hp hc hrows hbs h1 h2]
    rfl
  · unfold wordSimilarity at h ⊢
    rw [he]
    obtain ⟨o, h2, h⟩ := Res.bind_eq_ok.mp h
    rw [h2, Res.ok_bind]
    cases o with
    | none => cases h
    | some q =>
      dsimp only at h ⊢
      obtain ⟨r', h3, h⟩ := Res.bind_eq_ok.mp h
      cases h
      rw [similarity_order hv hv' hm hm' hp hc hrows hbs h1 h3]
      rfl
  · have hl : e'.lookupWords3 x y z = e.lookupWords3 x y z := by
      unfold lookupWords3
      rw [he x (by simp), he y (by simp), he z (by simp)]
    unfold analogyMasked at h ⊢
    rw [hl]
    obtain ⟨o, h2, h⟩ := Res.bind_eq_ok.mp h
    rw [h2, Res.ok_bind]
    cases o with
    | error p => cases h
    | ok vs =>
      obtain ⟨v1, v2, v3⟩ := vs
      dsimp only at h ⊢
      obtain ⟨r', h3, h⟩ := Res.bind_eq_ok.mp h
      cases h
      rw [similarity_order hv hv' hm hm' hp hc hrows hbs h1 h3]
      rfl

end

/-! ## Examples -/

/-- `exampleQuery` with its words and rows in another order. -/
def exampleReordered : Embeddings Str SimpleVocab (NdArray F32) F32 :=
  ⟨none, ⟨⟨2, [[2, 5], [1, 0], [2, 1]]⟩⟩, ⟨indexMap [['b'], ['a'], ['c']], [['b'], ['a'], ['c']]⟩, none⟩

attribute [local instance] exampleScalar in
/-- The hypotheses of `c99_limit`, `c99_skip` and `c99_mask` hold for a concrete case. -/
example : WordsOk exampleQuery.vocab ∧
    (exampleQuery.wordSimilarity ['a'] 2 none = .ok (some [⟨2, ['b']⟩, ⟨2, ['c']⟩])) ∧
    (exampleQuery.wordSimilarity ['a'] 1 none = .ok (some [⟨2, ['b']⟩])) ∧
    (∃ r, exampleQuery.embeddingSimilarityMasked [1, 0] (1 + [['b']].length) [['a']] none = .ok (some r) ∧
      r.map (·.word) = [['b'], ['c']]) ∧
    ∃ r, exampleQuery.analogyMasked ['a'] ['c'] ['b'] false false false (1 + 3) none = .ok (.ok r) ∧ r.length = 3 := by
  refine ⟨⟨by decide, by decide⟩, by decide +kernel, by decide +kernel, ⟨_, rfl, by decide +kernel⟩, _, rfl, by decide +kernel⟩

attribute [local instance] exampleScalar in
/-- The hypotheses of `c99_order` hold for a concrete case. -/
example : WordsOk exampleReordered.vocab ∧
    (Vocab.words exampleQuery.vocab).zip exampleQuery.storage.inner.rows ≠
      (Vocab.words exampleReordered.vocab).zip exampleReordered.storage.inner.rows ∧
    ((Vocab.words exampleQuery.vocab).zip exampleQuery.storage.inner.rows).Perm
      ((Vocab.words exampleReordered.vocab).zip exampleReordered.storage.inner.rows) ∧
    exampleReordered.embedding ['a'] = exampleQuery.embedding ['a'] ∧
    (exampleReordered.wordSimilarity ['a'] 2 (some 2) = .ok (some [⟨2, ['b']⟩, ⟨2, ['c']⟩])) := by
  refine ⟨⟨by decide, by decide⟩, by decide, by decide, by decide +kernel, by decide +kernel⟩

end FF
