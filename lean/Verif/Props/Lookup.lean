import Verif.Props.EmbeddingsIO
import Verif.Props.Vocab

/-!
# Properties of embedding lookups (C34, C35, C36, C39, C40, C58)
-/

namespace FF

open Embeddings Res

section
variable {T V S F : Type} [Vocab V] [Storage S F] [Scalar F]

/-- Specification: every vector the storage returns has `dims` components. -/
def RowsSized (s : S) : Prop := ∀ i v, Storage.embedding s i = .ok v → v.length = (shape s).2

/-- Specification: every row of the storage can be looked up. -/
def RowsTotal (s : S) : Prop := ∀ i, i < (shape s).1 → ∃ v, Storage.embedding s i = .ok v

/-! ## C34 -/

omit [Scalar F] in
theorem batch_rows {s : S} (hb : BatchIsRows s) (hr : RowsSized s) {is : List Nat} {m : Mat F}
    (h : Storage.embeddings s is = .ok m) : m.cols = (shape s).2 ∧ ∀ r ∈ m.rows, r.length = (shape s).2 := by
  have := ((hb is).1 m).mp h
  refine ⟨this.1, fun r hrm => ?_⟩
  have h2 : Res.ok r ∈ is.map (Storage.embedding s) := by
    rw [this.2]; exact List.mem_map_of_mem hrm
  obtain ⟨i, _, hi⟩ := List.mem_map.mp h2
  exact hr i r hi

theorem sumAxis0_eq {m : Mat F} (hr : ∀ r ∈ m.rows, r.length = m.cols)
    (hs : m.cols = 1 → ∀ xs : List F, Scalar.sum xs = xs.foldl Scalar.add Scalar.zero) :
    m.sumAxis0 = m.rows.foldl (List.zipWith Scalar.add) (List.replicate m.cols Scalar.zero) := by
  unfold Mat.sumAxis0
  split
  · rename_i h1
    rw [hs h1]
    rw [h1] at hr ⊢
    have : ∀ (rows : List (List F)) (z : F), (∀ r ∈ rows, r.length = 1) →
        [rows.flatten.foldl Scalar.add z] = rows.foldl (List.zipWith Scalar.add) [z] := by
      intro rows
      induction rows with
      | nil => intro z _; rfl
      | cons r rows ih =>
        intro z hr
        obtain ⟨x, rfl⟩ := List.length_eq_one_iff.mp (hr r (by simp))
        simp only [List.flatten_cons, List.singleton_append, List.foldl_cons, List.zipWith_cons_cons,
          List.zipWith_nil_left]
        exact ih _ fun r hr' => hr r (by simp [hr'])
    exact this m.rows _ hr
  · rfl

/-- C34: `embedding_into` is `embedding`, written into the target: same flag, same vector, target untouched if
there is no embedding, and failing in the same cases. `hs` is only about one-dimensional embeddings: for those
ndarray may add the components in another order when summing a matrix. -/
theorem c34_into (e : Embeddings T V S F) (hb : BatchIsRows e.storage) (hr : RowsSized e.storage)
    (hs : e.dims = 1 → ∀ xs : List F, Scalar.sum xs = xs.foldl Scalar.add Scalar.zero)
    (w : Str) (t : List F) (ht : t.length = e.dims) :
    e.embeddingInto w t = (e.embedding w).map fun r => (r.isSome, r.getD t) := by
  unfold Embeddings.embeddingInto Embeddings.embedding
  simp only [ht, decide_true, Res.assert, if_true, Res.ok_bind]
  cases Vocab.idx e.vocab w with
  | err x => rfl
  | panic => rfl
  | ok o =>
    simp only [Res.ok_bind]
    match o with
    | none => rfl
    | some (.word i) =>
      simp only
      cases Storage.embedding e.storage i <;> rfl
    | some (.subword is) =>
      simp only
      cases hm : Storage.embeddings e.storage is with
      | err x => rfl
      | panic => rfl
      | ok m =>
        obtain ⟨hc, hl⟩ := batch_rows hb hr hm
        have hz : (t.map fun _ => (Scalar.zero : F)) = List.replicate m.cols Scalar.zero := by
          rw [List.map_const', ht, hc]; rfl
        have hsum := sumAxis0_eq (m := m) (by rw [hc]; exact hl) (by rw [hc]; exact hs)
        simp only [Res.ok_bind, Res.pure_eq, Res.map_ok, Option.isSome_some, Option.getD_some]
        rw [hsum, hz]

/-- C34, wrong target length: `embedding_into` panics. -/
theorem c34_wrong_length (e : Embeddings T V S F) (w : Str) (t : List F) (ht : t.length ≠ e.dims) :
    e.embeddingInto w t = .panic := by
  unfold Embeddings.embeddingInto
  simp [ht, Res.assert]

/-! ## C35 -/

/-- The positions at which `w` occurs, counting from `i`. -/
def positionsOf (w : Str) : List Str → Nat → List Nat
  | [], _ => []
  | x :: xs, i => if x = w then i :: positionsOf w xs (i + 1) else positionsOf w xs (i + 1)

theorem mem_positionsOf {w : Str} {ws : List Str} {i j : Nat} :
    j ∈ positionsOf w ws i ↔ i ≤ j ∧ ws[j - i]? = some w := by
  induction ws generalizing i with
  | nil => simp [positionsOf]
  | cons x xs ih =>
    unfold positionsOf
    by_cases hj : j = i
    · subst hj
      by_cases hx : x = w
      · simp [hx]
      · simp only [hx, if_false, ih]
        simp [hx]; omega
    · have h1 : i ≤ j ↔ i + 1 ≤ j := by omega
      have h2 : i + 1 ≤ j → (x :: xs)[j - i]? = xs[j - (i + 1)]? := by
        intro h
        have : j - i = (j - (i + 1)) + 1 := by omega
        rw [this, List.getElem?_cons_succ]
      by_cases hx : x = w
      · simp only [if_pos hx, List.mem_cons, hj, false_or, ih]
        constructor
        · rintro ⟨ha, hb⟩; exact ⟨by omega, by rw [h2 ha]; exact hb⟩
        · rintro ⟨ha, hb⟩; exact ⟨by omega, by rw [← h2 (by omega)]; exact hb⟩
      · simp only [hx, if_false, ih]
        constructor
        · rintro ⟨ha, hb⟩; exact ⟨by omega, by rw [h2 ha]; exact hb⟩
        · rintro ⟨ha, hb⟩; exact ⟨by omega, by rw [← h2 (by omega)]; exact hb⟩

theorem wordPositions_keys (ws : List Str) (i : Nat) (m : HMap Str (List Nat)) (h : m.keys.Nodup) :
    (wordPositions ws i m).keys.Nodup := by
  induction ws generalizing i m with
  | nil => exact h
  | cons w ws ih => exact ih _ _ (HMap.nodup_keys_insert h _ _)

theorem wordPositions_get (ws : List Str) (i : Nat) (m : HMap Str (List Nat)) (w : Str) :
    (wordPositions ws i m).get w =
      if w ∈ ws then some ((m.get w).getD [] ++ positionsOf w ws i) else m.get w := by
  induction ws generalizing i m with
  | nil => simp [wordPositions]
  | cons x xs ih =>
    rw [wordPositions, ih, HMap.get_insert]
    by_cases hx : x = w
    · subst hx
      by_cases hm : x ∈ xs
      · simp [hm, positionsOf, List.append_assoc]
      · have : positionsOf x xs (i + 1) = [] := by
          apply List.eq_nil_iff_forall_not_mem.mpr
          intro j hj
          obtain ⟨_, h⟩ := mem_positionsOf.mp hj
          exact hm (List.mem_of_getElem? h)
        simp [hm, positionsOf, this]
    · have hx' : w ≠ x := fun h => hx h.symm
      by_cases hm : w ∈ xs
      · simp [hm, hx, positionsOf]
      · simp [hm, hx, hx']

/-- Writing the same value to several places. -/
theorem getElem?_foldl_set {α : Type} (l : List α) (ps : List Nat) (v : α) (j : Nat) :
    (ps.foldl (fun l i => l.set i v) l)[j]? = if j ∈ ps ∧ j < l.length then some v else l[j]? := by
  induction ps generalizing l with
  | nil => simp
  | cons p ps ih =>
    rw [List.foldl_cons, ih, List.getElem?_set, List.length_set]
    by_cases h1 : j ∈ ps ∧ j < l.length
    · simp [h1]
    · rw [if_neg h1]
      by_cases h2 : p = j
      · subst h2
        by_cases h3 : p < l.length
        · simp [h3]
        · rw [List.getElem?_eq_none (by omega)]
          simp [h3]
      · have : ¬ (j ∈ p :: ps ∧ j < l.length) := by
          rintro ⟨ha, hb⟩
          rcases List.mem_cons.mp ha with h | h
          · exact h2 h.symm
          · exact h1 ⟨h, hb⟩
        rw [if_neg h2, if_neg this]

theorem length_foldl_set {α : Type} (l : List α) (ps : List Nat) (v : α) :
    (ps.foldl (fun l i => l.set i v) l).length = l.length := by
  induction ps generalizing l with
  | nil => rfl
  | cons p ps ih => rw [List.foldl_cons, ih, List.length_set]

omit [Scalar F] in
theorem copyRows_eq {first : Nat} {rows : List (List F)} {found : List Bool} {ps : List Nat} {v : List F}
    (hf : rows[first]? = some v) (hps : ∀ p ∈ ps, p < rows.length) :
    copyRows first (rows, found) ps =
      .ok (ps.foldl (fun l i => l.set i v) rows, ps.foldl (fun l i => l.set i true) found) := by
  unfold copyRows
  induction ps generalizing rows found with
  | nil => rfl
  | cons p ps ih =>
    have hp : p < rows.length := hps p (by simp)
    rw [List.foldlM_cons]
    simp only [hf, Res.unwrap, Res.ok_bind, List.getElem?_eq_getElem hp, Res.pure_eq]
    rw [List.foldl_cons, List.foldl_cons]
    refine ih ?_ ?_
    · rw [List.getElem?_set]
      split
      · rename_i h
        subst h; simp
      · exact hf
    · intro q hq; rw [List.length_set]; exact hps q (by simp [hq])

/-- Effect of one word of a batch on rows and flags. -/
def applyWord (ps : List Nat) (st : List (List F) × List Bool) : Option (List F) → List (List F) × List Bool
  | some v => (ps.foldl (fun l i => l.set i v) st.1, ps.foldl (fun l i => l.set i true) st.2)
  | none => st

/-- One step of the batch loop: all positions of the word get its vector, or nothing changes. -/
theorem batchStep_eq (e : Embeddings T V S F) {rows : List (List F)} {found : List Bool} {w : Str} {ps : List Nat}
    {r : Option (List F)} (hne : ps ≠ []) (hps : ∀ p ∈ ps, p < rows.length)
    (hr : ∀ t ∈ rows, e.embeddingInto w t = .ok (r.isSome, r.getD t)) :
    e.batchStep (rows, found) (w, ps) = .ok (applyWord ps (rows, found) r) := by
  match ps, hne with
  | p :: ps, _ =>
    have hp : p < rows.length := hps p (by simp)
    unfold Embeddings.batchStep
    simp only [List.getElem?_cons_zero, Res.unwrap, Res.ok_bind, List.getElem?_eq_getElem hp,
      hr _ (List.getElem_mem hp)]
    cases r with
    | none => rfl
    | some v =>
      simp only [Option.isSome_some, if_true, Option.getD_some, List.drop_succ_cons, List.drop_zero,
        List.foldl_cons, applyWord]
      refine copyRows_eq (by simp [hp]) fun q hq => ?_
      rw [List.length_set]; exact hps q (by simp [hq])

/-- The batch loop over a list of distinct words: rows and flags of the words that were processed. -/
theorem batch_fold (e : Embeddings T V S F) (words : List Str) (R : Str → Option (List F))
    (L : List (Str × List Nat)) (rows : List (List F)) (found : List Bool)
    (hlen : rows.length = words.length) (hlen2 : found.length = words.length)
    (hL : ∀ w ps, (w, ps) ∈ L → ps ≠ [] ∧ ∀ p, p ∈ ps ↔ words[p]? = some w)
    (hR : ∀ w ps, (w, ps) ∈ L → ∀ t : List F, t.length = e.dims →
      e.embeddingInto w t = .ok ((R w).isSome, (R w).getD t))
    (hRl : ∀ w ps v, (w, ps) ∈ L → R w = some v → v.length = e.dims)
    (hrl : ∀ r ∈ rows, r.length = e.dims) :
    ∃ rows' found', L.foldlM e.batchStep (rows, found) = .ok (rows', found') ∧
      rows'.length = words.length ∧ found'.length = words.length ∧
      ∀ (j : Nat) (w : Str), words[j]? = some w →
        (rows'[j]? = if w ∈ L.map (·.1) then (rows[j]?).map (fun r => (R w).getD r) else rows[j]?) ∧
        (found'[j]? = if w ∈ L.map (·.1) then (found[j]?).map (fun b => b || (R w).isSome) else found[j]?) := by
  induction L generalizing rows found with
  | nil => exact ⟨rows, found, rfl, hlen, hlen2, by simp⟩
  | cons x L ih =>
    obtain ⟨w, ps⟩ := x
    obtain ⟨hne, hps⟩ := hL w ps (by simp)
    have hstep := batchStep_eq e (rows := rows) (found := found) (r := R w) hne
      (fun p hp => by
        have := (hps p).mp hp
        rw [hlen]; exact (List.getElem?_eq_some_iff.mp this).1)
      (fun t ht => hR w ps (by simp) t (hrl t ht))
    rw [List.foldlM_cons, hstep]
    simp only [Res.ok_bind]
    cases hRw : R w with
    | none =>
      obtain ⟨rows', found', h1, h2, h3, h4⟩ := ih rows found hlen hlen2 (fun w ps h => hL w ps (by simp [h]))
        (fun w ps h => hR w ps (by simp [h])) (fun w ps v h => hRl w ps v (by simp [h])) hrl
      refine ⟨rows', found', h1, h2, h3, fun j w' hj => ?_⟩
      obtain ⟨h5, h6⟩ := h4 j w' hj
      rw [h5, h6]
      by_cases hw : w' = w
      · subst hw
        simp [hRw]
      · have hmem : w' ∈ ((w, ps) :: L).map (·.1) ↔ w' ∈ L.map (·.1) := by simp [hw]
        simp only [hmem]
        exact ⟨trivial, trivial⟩
    | some v =>
      simp only [applyWord]
      have hvl : v.length = e.dims := hRl w ps v (by simp) hRw
      obtain ⟨rows', found', h1, h2, h3, h4⟩ := ih (ps.foldl (fun l i => l.set i v) rows)
        (ps.foldl (fun l i => l.set i true) found) (by rw [length_foldl_set, hlen])
        (by rw [length_foldl_set, hlen2]) (fun w ps h => hL w ps (by simp [h]))
        (fun w ps h => hR w ps (by simp [h])) (fun w ps v h => hRl w ps v (by simp [h]))
        (by
          intro r hr
          obtain ⟨j, hj⟩ := List.mem_iff_getElem?.mp hr
          rw [getElem?_foldl_set] at hj
          split at hj
          · cases hj; exact hvl
          · exact hrl r (List.mem_of_getElem? hj))
      refine ⟨rows', found', h1, h2, h3, fun j w' hj => ?_⟩
      obtain ⟨h5, h6⟩ := h4 j w' hj
      have hjl := (List.getElem?_eq_some_iff.mp hj).1
      have hj1 : j < rows.length := by omega
      have hj2 : j < found.length := by omega
      rw [h5, h6, getElem?_foldl_set, getElem?_foldl_set]
      by_cases hw : w' = w
      · subst hw
        have hjps : j ∈ ps := (hps j).mpr hj
        simp [hjps, hj1, hj2, hRw]
      · have hjps : j ∉ ps := fun h => hw (by have := (hps j).mp h; rw [hj] at this; exact Option.some.inj this)
        have hmem : w' ∈ ((w, ps) :: L).map (·.1) ↔ w' ∈ L.map (·.1) := by simp [hw]
        simp only [hjps, false_and, if_false, hmem]
        exact ⟨trivial, trivial⟩

theorem foldl_zipWith_length (rows : List (List F)) (z : List F) (h : ∀ r ∈ rows, r.length = z.length) :
    (rows.foldl (List.zipWith Scalar.add) z).length = z.length := by
  induction rows generalizing z with
  | nil => rfl
  | cons r rows ih =>
    have h1 : (List.zipWith Scalar.add z r).length = z.length := by
      rw [List.length_zipWith, h r (by simp), Nat.min_self]
    rw [List.foldl_cons, ih _ fun r' hr' => by rw [h1]; exact h r' (by simp [hr']), h1]

theorem l2Normalize_length (v : List F) : (l2Normalize v).1.length = v.length := by
  unfold l2Normalize
  simp only
  split
  · rfl
  · simp

theorem sumAxis0_length {m : Mat F} (h : ∀ r ∈ m.rows, r.length = m.cols) : m.sumAxis0.length = m.cols := by
  unfold Mat.sumAxis0
  split
  · rename_i h1; rw [h1]; rfl
  · rw [foldl_zipWith_length _ _ (by simpa using h), List.length_replicate]

/-- Every embedding that is returned has `dims` components. -/
theorem embedding_length (e : Embeddings T V S F) (hb : BatchIsRows e.storage) (hr : RowsSized e.storage)
    (w : Str) (v : List F) (h : e.embedding w = .ok (some v)) : v.length = e.dims := by
  unfold Embeddings.embedding at h
  obtain ⟨o, ho, h⟩ := Res.bind_eq_ok.mp h
  match o with
  | none => cases h
  | some (.word i) =>
    obtain ⟨v', hv, h⟩ := Res.bind_eq_ok.mp h
    cases h
    exact hr i _ hv
  | some (.subword is) =>
    obtain ⟨m, hm, h⟩ := Res.bind_eq_ok.mp h
    cases h
    obtain ⟨hc, hl⟩ := batch_rows hb hr hm
    rw [l2Normalize_length, sumAxis0_length (by rw [hc]; exact hl), hc]; rfl

theorem foldlM_ok_step {α σ : Type} {f : σ → α → Res σ} {L : List α} {s t : σ} (h : L.foldlM f s = .ok t)
    {a : α} (ha : a ∈ L) : ∃ s1 s2, f s1 a = .ok s2 := by
  induction L generalizing s with
  | nil => cases ha
  | cons x L ih =>
    rw [List.foldlM_cons] at h
    obtain ⟨s1, h1, h2⟩ := Res.bind_eq_ok.mp h
    rcases List.mem_cons.mp ha with rfl | ha
    · exact ⟨s, s1, h1⟩
    · exact ih h2 ha

/-- The entries of the map from words to positions. -/
theorem wordPositions_entries {order : List (Str × List Nat) → List (Str × List Nat)}
    (hord : ∀ l, (order l).Perm l) (words : List Str) :
    (∀ w ps, (w, ps) ∈ order (wordPositions words 0 HMap.empty).entries →
      w ∈ words ∧ ps ≠ [] ∧ ∀ p, p ∈ ps ↔ words[p]? = some w) ∧
    ∀ w ∈ words, w ∈ (order (wordPositions words 0 HMap.empty).entries).map (·.1) := by
  have hk := wordPositions_keys words 0 HMap.empty (by simp)
  constructor
  · intro w ps h
    have h' := HMap.get_of_mem_entries hk ((hord _).mem_iff.mp h)
    rw [wordPositions_get] at h'
    simp only [HMap.get_empty, Option.getD_none, List.nil_append] at h'
    by_cases hw : w ∈ words
    · rw [if_pos hw] at h'
      cases h'
      have hmem : ∀ p, p ∈ positionsOf w words 0 ↔ words[p]? = some w := by
        intro p; rw [mem_positionsOf]; simp
      refine ⟨hw, ?_, hmem⟩
      obtain ⟨j, hj⟩ := List.mem_iff_getElem?.mp hw
      exact List.ne_nil_of_mem ((hmem j).mpr hj)
    · rw [if_neg hw] at h'; cases h'
  · intro w hw
    have h' : (wordPositions words 0 HMap.empty).get w = some (positionsOf w words 0) := by
      rw [wordPositions_get, if_pos hw]; simp
    exact List.mem_map.mpr ⟨_, (hord _).mem_iff.mpr (HMap.mem_entries_of_get h'), rfl⟩

/-- C35 for `embedding_batch_into`: row `j` of the output becomes the embedding of word `j` and is left alone
if there is none; flag `j` tells which. Any number of repetitions, any iteration order. -/
theorem c35_batch_into (e : Embeddings T V S F) (hb : BatchIsRows e.storage) (hr : RowsSized e.storage)
    (hs : e.dims = 1 → ∀ xs : List F, Scalar.sum xs = xs.foldl Scalar.add Scalar.zero)
    (order : List (Str × List Nat) → List (Str × List Nat)) (hord : ∀ l, (order l).Perm l)
    (words : List Str) (output : Mat F) (hn : output.nrows = words.length) (hc : output.cols = e.dims)
    (hw : output.WF) (R : Str → Option (List F)) (hR : ∀ w ∈ words, e.embedding w = .ok (R w)) :
    e.embeddingBatchInto order words output =
      .ok (⟨e.dims, List.zipWith (fun w row => (R w).getD row) words output.rows⟩,
        words.map fun w => (R w).isSome) := by
  obtain ⟨hent, hall⟩ := wordPositions_entries hord words
  have hn' : output.rows.length = words.length := hn
  obtain ⟨rows', found', h1, h2, h3, h4⟩ := batch_fold e words R
    (order (wordPositions words 0 HMap.empty).entries) output.rows (words.map fun _ => false) hn' (by simp)
    (fun w ps h => (hent w ps h).2)
    (fun w ps h t ht => by rw [c34_into e hb hr hs w t ht, hR w (hent w ps h).1]; rfl)
    (fun w ps v h hv => embedding_length e hb hr w v (by rw [hR w (hent w ps h).1, hv]))
    (fun r hr' => by rw [← hc]; exact hw r hr')
  unfold Embeddings.embeddingBatchInto
  simp only [hn, hc, decide_true, Res.assert, if_true, Res.ok_bind, h1, Res.pure_eq]
  have e1 : rows' = List.zipWith (fun w row => (R w).getD row) words output.rows := by
    apply List.ext_getElem?
    intro j
    rw [List.getElem?_zipWith]
    by_cases hj : j < words.length
    · have hwj := List.getElem?_eq_getElem hj
      rw [(h4 j _ hwj).1, if_pos (hall _ (List.getElem_mem hj)), hwj]
      cases output.rows[j]? <;> rfl
    · rw [List.getElem?_eq_none (by omega), List.getElem?_eq_none (Nat.le_of_not_lt hj)]
  have e2 : found' = words.map fun w => (R w).isSome := by
    apply List.ext_getElem?
    intro j
    rw [List.getElem?_map]
    by_cases hj : j < words.length
    · have hwj := List.getElem?_eq_getElem hj
      rw [(h4 j _ hwj).2, if_pos (hall _ (List.getElem_mem hj)), hwj, List.getElem?_map, hwj]
      simp
    · rw [List.getElem?_eq_none (by omega), List.getElem?_eq_none (Nat.le_of_not_lt hj)]; rfl
  rw [e1, e2]

/-- C35 for `embedding_batch`: like the single lookups, with zero vectors for words without embedding. -/
theorem c35_batch (e : Embeddings T V S F) (hb : BatchIsRows e.storage) (hr : RowsSized e.storage)
    (hs : e.dims = 1 → ∀ xs : List F, Scalar.sum xs = xs.foldl Scalar.add Scalar.zero)
    (order : List (Str × List Nat) → List (Str × List Nat)) (hord : ∀ l, (order l).Perm l)
    (words : List Str) (R : Str → Option (List F)) (hR : ∀ w ∈ words, e.embedding w = .ok (R w)) :
    e.embeddingBatch order words =
      .ok (⟨e.dims, words.map fun w => (R w).getD (List.replicate e.dims Scalar.zero)⟩,
        words.map fun w => (R w).isSome) := by
  unfold Embeddings.embeddingBatch
  rw [c35_batch_into e hb hr hs order hord words _ (by simp [Mat.nrows]) rfl
    (by intro r hr'; simp only [List.mem_map] at hr'; obtain ⟨_, _, rfl⟩ := hr'; simp) R hR]
  congr 3
  rw [List.zipWith_map_right]
  apply List.ext_getElem?
  intro j
  rw [List.getElem?_zipWith, List.getElem?_map]
  cases words[j]? <;> rfl

/-- C35, failing lookups: if the single lookup of a word of the batch fails (panics), so does the batch. -/
theorem c35_fails (e : Embeddings T V S F) (hb : BatchIsRows e.storage) (hr : RowsSized e.storage)
    (hs : e.dims = 1 → ∀ xs : List F, Scalar.sum xs = xs.foldl Scalar.add Scalar.zero)
    (order : List (Str × List Nat) → List (Str × List Nat)) (hord : ∀ l, (order l).Perm l)
    (words : List Str) (output : Mat F) (w : Str) (hw : w ∈ words) (h : ∀ r, e.embedding w ≠ .ok r) :
    ∀ r, e.embeddingBatchInto order words output ≠ .ok r := by
  intro r hok
  unfold Embeddings.embeddingBatchInto at hok
  obtain ⟨_, _, hok⟩ := Res.bind_eq_ok.mp hok
  obtain ⟨_, _, hok⟩ := Res.bind_eq_ok.mp hok
  obtain ⟨⟨rows, found⟩, hf, _⟩ := Res.bind_eq_ok.mp hok
  obtain ⟨⟨w', ps⟩, hm, rfl⟩ := List.mem_map.mp ((wordPositions_entries hord words).2 w hw)
  obtain ⟨s1, s2, hstep⟩ := foldlM_ok_step hf hm
  unfold Embeddings.batchStep at hstep
  obtain ⟨first, _, hstep⟩ := Res.bind_eq_ok.mp hstep
  obtain ⟨t, _, hstep⟩ := Res.bind_eq_ok.mp hstep
  obtain ⟨q, hq, _⟩ := Res.bind_eq_ok.mp hstep
  by_cases ht : t.length = e.dims
  · rw [c34_into e hb hr hs _ t ht] at hq
    obtain ⟨a, ha, _⟩ := map_eq_ok.mp hq
    exact h a ha
  · rw [c34_wrong_length e _ t ht] at hq; cases hq

/-! ## C39, C40 -/

/-- C39: `embedding_with_norm` returns the vector of `embedding`; for a known word the norm is the stored norm
(1 if there are none), for an unknown word it is the norm that the sum of the n-gram vectors had before it was
normalised. -/
theorem c39_with_norm (e : Embeddings T V S F) (w : Str) (r : Option (List F × F))
    (h : e.embeddingWithNorm w = .ok r) :
    e.embedding w = .ok (r.map (·.1)) ∧
    (∀ i, Vocab.idx e.vocab w = .ok (some (.word i)) → ∃ v x, r = some (v, x) ∧
      (e.norms = none → x = Scalar.one) ∧ ∀ n, e.norms = some n → n.inner[i]? = some x) ∧
    (∀ is, Vocab.idx e.vocab w = .ok (some (.subword is)) → ∃ m v x, Storage.embeddings e.storage is = .ok m ∧
      r = some (v, x) ∧ x = Scalar.sqrt (Scalar.dot m.sumAxis0 m.sumAxis0)) ∧
    (Vocab.idx e.vocab w = .ok none → r = none) := by
  unfold Embeddings.embeddingWithNorm at h
  unfold Embeddings.embedding
  obtain ⟨o, ho, h⟩ := Res.bind_eq_ok.mp h
  rw [ho]
  simp only [Res.ok_bind, Res.ok.injEq]
  match o with
  | none => cases h; simp
  | some (.word i) =>
    obtain ⟨v, hv, h⟩ := Res.bind_eq_ok.mp h
    obtain ⟨x, hx, h⟩ := Res.bind_eq_ok.mp h
    cases h
    simp only
    rw [hv]
    refine ⟨rfl, ?_, by simp, by simp⟩
    intro j hj
    cases hj
    refine ⟨v, x, rfl, ?_, ?_⟩
    · intro hn
      unfold Embeddings.normAt at hx; rw [hn] at hx; cases hx; rfl
    · intro n hn
      unfold Embeddings.normAt at hx; rw [hn] at hx; exact unwrap_eq_ok.mp hx
  | some (.subword is) =>
    obtain ⟨m, hm, h⟩ := Res.bind_eq_ok.mp h
    cases h
    simp only
    rw [hm]
    refine ⟨rfl, by simp, ?_, by simp⟩
    intro js hj
    cases hj
    exact ⟨m, _, _, hm, rfl, rfl⟩

/-- C39: if there are enough norms, `embedding_with_norm` succeeds whenever `embedding` does. -/
theorem c39_with_norm_ok (e : Embeddings T V S F) (w : Str) (r : Option (List F)) (h : e.embedding w = .ok r)
    (hn : ∀ i, Vocab.idx e.vocab w = .ok (some (.word i)) → ∀ n ∈ e.norms, i < n.inner.length) :
    ∃ r', e.embeddingWithNorm w = .ok r' ∧ r'.map (·.1) = r := by
  unfold Embeddings.embedding at h
  unfold Embeddings.embeddingWithNorm
  obtain ⟨o, ho, h⟩ := Res.bind_eq_ok.mp h
  rw [ho]
  simp only [Res.ok_bind]
  match o with
  | none => cases h; exact ⟨_, rfl, rfl⟩
  | some (.word i) =>
    obtain ⟨v, hv, h⟩ := Res.bind_eq_ok.mp h
    cases h
    simp only
    rw [hv]
    unfold Embeddings.normAt
    cases hnn : e.norms with
    | none => exact ⟨_, rfl, rfl⟩
    | some n =>
      have hl := hn i ho n hnn
      simp only [List.getElem?_eq_getElem hl]
      exact ⟨_, rfl, rfl⟩
  | some (.subword is) =>
    obtain ⟨m, hm, h⟩ := Res.bind_eq_ok.mp h
    cases h
    simp only
    rw [hm]
    exact ⟨_, rfl, rfl⟩

/-- C39: `into_unnormalized` is vector times norm. -/
theorem c39_unnormalized (v : List F) (x : F) (i : Nat) :
    (intoUnnormalized (v, x))[i]? = (v[i]?).map fun c => Scalar.mul c x := by
  simp [intoUnnormalized, scale]

/-- C39: iteration with norms pairs the `i`-th word with the `i`-th row and the `i`-th norm (1 if there are no
norms). -/
theorem c39_iter (e : Embeddings T V S F) (l : List (Str × List F × F)) (h : e.iterWithNorms = .ok l) :
    l.map (·.1) = Vocab.words e.vocab ∧
    ∀ i w v x, l[i]? = some (w, v, x) → (Vocab.words e.vocab)[i]? = some w ∧
      Storage.embedding e.storage i = .ok v ∧
      (e.norms = none → x = Scalar.one) ∧ ∀ n, e.norms = some n → n.inner[i]? = some x := by
  unfold Embeddings.iterWithNorms at h
  have hstep : ∀ i w v x, l[i]? = some (w, v, x) → (Vocab.words e.vocab)[i]? = some w ∧
      Storage.embedding e.storage i = .ok v ∧
      (e.norms = none → x = Scalar.one) ∧ ∀ n, e.norms = some n → n.inner[i]? = some x := by
    intro i w v x hi
    have hlen := mapM_length h
    have hil := (List.getElem?_eq_some_iff.mp hi).1
    have hil' : i < (Vocab.words e.vocab).length := by rw [hlen, List.length_zipIdx] at hil; exact hil
    have hz : (Vocab.words e.vocab).zipIdx[i]? = some ((Vocab.words e.vocab)[i], i) := by
      rw [List.getElem?_zipIdx, List.getElem?_eq_getElem hil']; simp
    obtain ⟨b, hb, hf⟩ := mapM_get h hz
    rw [hi] at hb
    cases hb
    obtain ⟨v', hv, hf⟩ := Res.bind_eq_ok.mp hf
    obtain ⟨x', hx, hf⟩ := Res.bind_eq_ok.mp hf
    cases hf
    refine ⟨List.getElem?_eq_getElem hil', hv, ?_, ?_⟩
    · intro hn
      unfold Embeddings.normAt at hx; rw [hn] at hx; cases hx; rfl
    · intro n hn
      unfold Embeddings.normAt at hx; rw [hn] at hx; exact unwrap_eq_ok.mp hx
  refine ⟨?_, hstep⟩
  have hlen := mapM_length h
  rw [List.length_zipIdx] at hlen
  apply List.ext_getElem?
  intro i
  rw [List.getElem?_map]
  cases hi : l[i]? with
  | none =>
    rw [List.getElem?_eq_none_iff] at hi
    rw [List.getElem?_eq_none (by omega)]; rfl
  | some p =>
    obtain ⟨w, v, x⟩ := p
    rw [(hstep i w v x hi).1]; rfl

omit [Scalar F] in
/-- The `i`-th item of an exhausted iterator. -/
theorem iter_get (e : Embeddings T V S F) (l : List (Str × List F)) (h : e.iter = .ok l) :
    l.length = (Vocab.words e.vocab).length ∧
    ∀ i w v, l[i]? = some (w, v) → (Vocab.words e.vocab)[i]? = some w ∧ Storage.embedding e.storage i = .ok v := by
  unfold Embeddings.iter at h
  have hlen := mapM_length h
  rw [List.length_zipIdx] at hlen
  refine ⟨hlen, fun i w v hi => ?_⟩
  have hil := (List.getElem?_eq_some_iff.mp hi).1
  have hil' : i < (Vocab.words e.vocab).length := by omega
  have hz : (Vocab.words e.vocab).zipIdx[i]? = some ((Vocab.words e.vocab)[i], i) := by
    rw [List.getElem?_zipIdx, List.getElem?_eq_getElem hil']; simp
  obtain ⟨b, hb, hf⟩ := mapM_get h hz
  rw [hi] at hb
  cases hb
  obtain ⟨v', hv, hf⟩ := Res.bind_eq_ok.mp hf
  cases hf
  exact ⟨List.getElem?_eq_getElem hil', hv⟩

/-- C40: iteration yields every vocabulary word once, in order, with the vector its lookup returns. `hidx` is
C22: the index of a word is its position. -/
theorem c40_iter (e : Embeddings T V S F)
    (hidx : ∀ i w, Vocab.idx e.vocab w = .ok (some (.word i)) ↔ (Vocab.words e.vocab)[i]? = some w)
    (l : List (Str × List F)) (h : e.iter = .ok l) :
    l.map (·.1) = Vocab.words e.vocab ∧ (Vocab.words e.vocab).Nodup ∧
    ∀ w v, (w, v) ∈ l → e.embedding w = .ok (some v) := by
  obtain ⟨hlen, hget⟩ := iter_get e l h
  refine ⟨?_, ?_, ?_⟩
  · apply List.ext_getElem?
    intro i
    rw [List.getElem?_map]
    cases hi : l[i]? with
    | none =>
      rw [List.getElem?_eq_none_iff] at hi
      rw [List.getElem?_eq_none (by omega)]; rfl
    | some p => rw [(hget i p.1 p.2 hi).1]; rfl
  · refine List.pairwise_iff_getElem.mpr fun i j hi hj hij heq => ?_
    have hw := List.getElem?_eq_getElem hj
    have h1 := (hidx j _).mpr hw
    have h2 := (hidx i _).mpr ((List.getElem?_eq_getElem hi).trans (congrArg some heq))
    rw [h1] at h2
    simp at h2; omega
  · intro w v hm
    obtain ⟨i, hi⟩ := List.mem_iff_getElem?.mp hm
    obtain ⟨h1, h2⟩ := hget i w v hi
    unfold Embeddings.embedding
    rw [(hidx i w).mpr h1]
    simp only [Res.ok_bind]
    rw [h2]; rfl

omit [Scalar F] in
/-- C40: iteration does not panic when the storage has a row for every word. -/
theorem c40_total (e : Embeddings T V S F) (ht : RowsTotal e.storage)
    (hl : (Vocab.words e.vocab).length ≤ (shape e.storage).1) : ∃ l, e.iter = .ok l := by
  unfold Embeddings.iter
  apply mapM_ok_of
  rintro ⟨w, i⟩ hm
  have hi := (List.mem_zipIdx' hm).1
  obtain ⟨v, hv⟩ := ht i (by omega)
  exact ⟨(w, v), by dsimp only; rw [hv]; rfl⟩

/-! ## C36 -/

/-- Specification: looking up a word never panics. -/
def VocabTotal (v : V) : Prop := ∀ w, ∃ r, Vocab.idx v w = .ok r

omit [Scalar F] in
/-- C36, the constructor: it succeeds exactly if the number of words is the number of norms and the size of the
vocabulary is the number of rows; otherwise it panics. -/
theorem c36_new (metadata : Option (Metadata T)) (v : V) (s : S) (n : NdNorms F) (k : Nat)
    (hk : Vocab.vocabLen v = .ok k) :
    (Vocab.wordsLen v = n.inner.length ∧ k = (shape s).1 →
      Embeddings.new metadata v s n = .ok ⟨metadata, s, v, some n⟩) ∧
    (¬ (Vocab.wordsLen v = n.inner.length ∧ k = (shape s).1) → Embeddings.new metadata v s n = .panic) := by
  unfold Embeddings.new Embeddings.newWithMaybeNorms
  rw [hk]
  by_cases h1 : Vocab.wordsLen v = n.inner.length
  · by_cases h2 : k = (shape s).1
    · simp [h1, h2, Res.assert]
    · simp [h1, h2, Res.assert]
  · simp [h1, Res.assert]

/-- C36: with a vocabulary whose lookups do not panic and stay inside (C24), and a storage with as many rows as
the vocabulary has indices, no lookup panics. -/
theorem c36_no_panic (e : Embeddings T V S F) (hv : VocabTotal e.vocab) (hin : IndicesInside e.vocab)
    (hc : Consistent e) (hb : BatchIsRows e.storage) (hr : RowsSized e.storage) (ht : RowsTotal e.storage)
    (hs : e.dims = 1 → ∀ xs : List F, Scalar.sum xs = xs.foldl Scalar.add Scalar.zero) :
    (∀ w, ∃ r, e.embedding w = .ok r) ∧
    (∀ w t, t.length = e.dims → ∃ r, e.embeddingInto w t = .ok r) ∧
    (∀ w, ∃ r, e.embeddingWithNorm w = .ok r) ∧
    ∀ order : List (Str × List Nat) → List (Str × List Nat), (∀ l, (order l).Perm l) →
      ∀ words, ∃ r, e.embeddingBatch order words = .ok r := by
  obtain ⟨n, hn, hle, hin⟩ := hin
  have hrows : n = (shape e.storage).1 := by have := hc.1; rw [hn] at this; exact Res.ok.inj this
  have h1 : ∀ w, ∃ r, e.embedding w = .ok r := by
    intro w
    obtain ⟨o, ho⟩ := hv w
    unfold Embeddings.embedding
    rw [ho]
    simp only [Res.ok_bind]
    match o, ho with
    | none, _ => exact ⟨_, rfl⟩
    | some (.word i), ho =>
      have := (hin w).1 i ho
      obtain ⟨v, hv⟩ := ht i (by omega)
      simp only; rw [hv]; exact ⟨_, rfl⟩
    | some (.subword is), ho =>
      have hi := (hin w).2 is ho
      have : ∃ rs, is.mapM (Storage.embedding e.storage) = .ok rs :=
        mapM_ok_of fun i his => ht i (by have := (hi.2 i his).2; omega)
      obtain ⟨rs, hrs⟩ := this
      have hm := ((hb is).1 ⟨(shape e.storage).2, rs⟩).mpr ⟨rfl, mapM_eq_ok_iff.mp hrs⟩
      simp only; rw [hm]; exact ⟨_, rfl⟩
  refine ⟨h1, ?_, ?_, ?_⟩
  · intro w t ht'
    obtain ⟨r, hr'⟩ := h1 w
    rw [c34_into e hb hr hs w t ht', hr']; exact ⟨_, rfl⟩
  · intro w
    obtain ⟨r, hr'⟩ := h1 w
    obtain ⟨r', h', _⟩ := c39_with_norm_ok e w r hr' fun i hi m hm => by
      rw [hc.2 m hm]; exact (hin w).1 i hi
    exact ⟨r', h'⟩
  · intro order hord words
    have : ∃ R : Str → Option (List F), ∀ w, e.embedding w = .ok (R w) := ⟨fun w => Classical.choose (h1 w),
      fun w => Classical.choose_spec (h1 w)⟩
    obtain ⟨R, hR⟩ := this
    exact ⟨_, c35_batch e hb hr hs order hord words R fun w _ => hR w⟩

end

theorem subword_total {I : Type} [Indexer I] {ws : List Str} {m M : Nat} {ix : I} {bow eow : Str}
    {v : SubwordVocab I} (hv : SubwordVocab.newWithBoundaries ws m M ix bow eow = .ok v)
    {f : NGram → List Nat} (hf : Answers ix f) (hm : 1 ≤ m) (hM : m ≤ M) : VocabTotal v := by
  intro w
  by_cases hw : w ∈ ws
  · obtain ⟨i, hi⟩ := List.mem_iff_getElem?.mp hw
    exact ⟨_, ((c22_subword ws m M ix bow eow v hv).2.2 i w).mpr hi⟩
  · exact ⟨_, idx_unknown hv hf hm hM hw⟩

/-- Vocabularies from the constructors, with any boundary markers, with a usable n-gram range (`min_n ≥ 1`,
`min_n ≤ max_n`; see `c25_bad_range`) and, for fastText, at least one bucket. -/
def UsableVocab : VocabWrap → Prop
  | .simple v => ∃ ws, SimpleVocab.new ws = .ok v
  | .bucket v => ∃ e ix ws m M bow eow, HashIndexer.new e = .ok ix ∧
      SubwordVocab.newWithBoundaries ws m M ix bow eow = .ok v ∧ 1 ≤ m ∧ m ≤ M
  | .fastText v => ∃ b ix ws m M bow eow, FastTextIndexer.new b = .ok ix ∧ b ≠ 0 ∧
      SubwordVocab.newWithBoundaries ws m M ix bow eow = .ok v ∧ 1 ≤ m ∧ m ≤ M
  | .explicit v => ∃ ix ws m M bow eow, ((∃ ng, ExplicitIndexer.new ng = .ok ix) ∨
        ∃ t o2n, ExplicitIndexer.newWithIndices t = .ok (ix, o2n)) ∧
      SubwordVocab.newWithBoundaries ws m M ix bow eow = .ok v ∧ 1 ≤ m ∧ m ≤ M
  | .floret v => ∃ nb nh seed ix ws m M bow eow, FloretIndexer.new nb nh seed = .ok ix ∧
      SubwordVocab.newWithBoundaries ws m M ix bow eow = .ok v ∧ 1 ≤ m ∧ m ≤ M

theorem UsableVocab.total {v : VocabWrap} (h : UsableVocab v) : VocabTotal v := by
  cases v with
  | simple v => intro w; exact ⟨_, rfl⟩
  | bucket v =>
    obtain ⟨e, ix, ws, m, M, bow, eow, h1, h2, h3, h4⟩ := h
    exact subword_total h2 (HashIndexer.answers h1) h3 h4
  | fastText v =>
    obtain ⟨b, ix, ws, m, M, bow, eow, h1, h0, h2, h3, h4⟩ := h
    exact subword_total h2 (FastTextIndexer.answers h1 h0) h3 h4
  | explicit v =>
    obtain ⟨ix, ws, m, M, bow, eow, h1, h2, h3, h4⟩ := h
    exact subword_total h2 (ExplicitIndexer.answers ix) h3 h4
  | floret v =>
    obtain ⟨nb, nh, seed, ix, ws, m, M, bow, eow, h1, h2, h3, h4⟩ := h
    exact subword_total h2 (FloretIndexer.answers h1) h3 h4

theorem UsableVocab.inside {v : VocabWrap} (h : UsableVocab v) : IndicesInside v := by
  cases v with
  | simple v =>
    obtain ⟨ws, h⟩ := h
    exact c24_simple ws v h
  | bucket v =>
    obtain ⟨e, ix, ws, m, M, bow, eow, h1, h2, h3, h4⟩ := h
    exact c24_bucket e ix h1 ws m M bow eow v h2
  | fastText v =>
    obtain ⟨b, ix, ws, m, M, bow, eow, h1, h0, h2, h3, h4⟩ := h
    exact c24_fasttext b ix h1 ws m M bow eow v h2
  | explicit v =>
    obtain ⟨ix, ws, m, M, bow, eow, h1, h2, h3, h4⟩ := h
    exact c24_explicit ix h1 ws m M bow eow v h2
  | floret v =>
    obtain ⟨nb, nh, seed, ix, ws, m, M, bow, eow, h1, h2, h3, h4⟩ := h
    exact c24_floret nb nh seed ix h1 ws m M bow eow v h2

/-! ### Storages -/

theorem NdArray.rowsSized {F : Type} {a : NdArray F} (h : a.inner.WF) : RowsSized a := by
  intro i v hv
  have hv : Res.unwrap a.inner.rows[i]? = .ok v := hv
  exact h v (List.mem_of_getElem? (unwrap_eq_ok.mp hv))

theorem NdArray.rowsTotal {F : Type} (a : NdArray F) : RowsTotal a := by
  intro i hi
  have hi : i < a.inner.rows.length := hi
  refine ⟨a.inner.rows[i], ?_⟩
  show Res.unwrap a.inner.rows[i]? = _
  rw [List.getElem?_eq_getElem hi]; rfl

section
variable {F : Type} [Scalar F]

theorem flatten_length_const {α : Type} {ls : List (List α)} {k : Nat} (h : ∀ l ∈ ls, l.length = k) :
    ls.flatten.length = ls.length * k := by
  induction ls with
  | nil => simp
  | cons l ls ih =>
    rw [List.flatten_cons, List.length_append, h l (by simp), ih fun l' hl' => h l' (by simp [hl']),
      List.length_cons, Nat.add_mul, Nat.one_mul, Nat.add_comm]

theorem Pq.reconstruct_length {q : Pq F} (h : q.WF) {c : List UInt8} {v : List F}
    (hv : q.reconstruct c = .ok v) : v.length = q.reconstructedLen := by
  obtain ⟨u, hu, rfl⟩ := map_eq_ok.mp hv
  unfold Pq.centroids at hu
  obtain ⟨_, hlen, hu⟩ := Res.bind_eq_ok.mp hu
  obtain ⟨parts, hp, hu⟩ := Res.bind_eq_ok.mp hu
  cases hu
  have hcl : c.length = q.quantizedLen := by
    by_cases hc : c.length = q.quantizedLen
    · exact hc
    · simp [hc, Res.assert] at hlen
  unfold Pq.project
  cases hpr : q.projection with
  | some p =>
    simp only
    rw [List.length_map]
    exact (h.proj p hpr).2.2
  | none =>
    simp only
    have hpl := mapM_length hp
    rw [List.length_zip, hcl] at hpl
    unfold Pq.quantizedLen at hpl
    rw [Nat.min_self] at hpl
    rw [flatten_length_const (k := q.subDim), hpl]
    · rfl
    · intro l hl
      have h2 : Res.ok l ∈ (c.zip q.quantizers).map fun p => p.2.row p.1.toNat := by
        rw [mapM_eq_ok_iff.mp hp]; exact List.mem_map_of_mem hl
      obtain ⟨⟨x, m⟩, hxm, hl⟩ := List.mem_map.mp h2
      obtain ⟨hmw, hmc, _⟩ := h.shape m (List.of_mem_zip hxm).2
      rw [← hmc]
      exact hmw l (List.mem_of_getElem? (unwrap_eq_ok.mp hl))

theorem quantizedRow_length {q : Pq F} (h : q.WF) {norms : Option (List F)} {code : Nat → Res (List UInt8)}
    {i : Nat} {v : List F} (hv : quantizedRow q norms code i = .ok v) : v.length = q.reconstructedLen := by
  unfold quantizedRow at hv
  obtain ⟨c, _, hv⟩ := Res.bind_eq_ok.mp hv
  obtain ⟨r, hr, hv⟩ := Res.bind_eq_ok.mp hv
  have hl := Pq.reconstruct_length h hr
  cases norms with
  | none => cases hv; exact hl
  | some ns =>
    obtain ⟨n, _, hv⟩ := Res.bind_eq_ok.mp hv
    cases hv
    simpa [scale] using hl

theorem QuantizedArray.rowsSized {a : QuantizedArray F} (h : a.WF) : RowsSized a := by
  intro i v hv
  exact quantizedRow_length h.pq hv

/-- Every code refers to an existing centroid. -/
def QuantizedArray.CodesOk (a : QuantizedArray F) : Prop :=
  ∀ r ∈ a.codes.rows, ∀ c ∈ r, c.toNat < a.quantizer.nCentroids

theorem QuantizedArray.rowsTotal {a : QuantizedArray F} (h : a.WF) (hc : a.CodesOk) : RowsTotal a := by
  intro i hi
  have hi : i < a.codes.rows.length := hi
  have hrow : a.codes.row i = .ok a.codes.rows[i] := by
    show Res.unwrap a.codes.rows[i]? = _
    rw [List.getElem?_eq_getElem hi]; rfl
  have hmem : a.codes.rows[i] ∈ a.codes.rows := List.getElem_mem hi
  have hl : a.codes.rows[i].length = a.quantizer.quantizedLen := by rw [h.codes _ hmem, h.cols]
  have hcent : ∃ v, a.quantizer.centroids a.codes.rows[i] = .ok v := by
    unfold Pq.centroids
    simp only [hl, decide_true, Res.assert, if_true, Res.ok_bind]
    have : ∃ ps, (a.codes.rows[i].zip a.quantizer.quantizers).mapM (fun p => p.2.row p.1.toNat) = .ok ps := by
      apply mapM_ok_of
      rintro ⟨x, m⟩ hxm
      have hx := hc _ hmem x (List.of_mem_zip hxm).1
      have hm := (h.pq.shape m (List.of_mem_zip hxm).2).2.2
      have hx' : x.toNat < m.rows.length := by rw [← hm] at hx; exact hx
      refine ⟨m.rows[x.toNat], ?_⟩
      show Res.unwrap m.rows[x.toNat]? = _
      rw [List.getElem?_eq_getElem hx']; rfl
    obtain ⟨ps, hps⟩ := this
    rw [hps]; exact ⟨_, rfl⟩
  obtain ⟨v, hv⟩ := hcent
  show ∃ v, quantizedRow a.quantizer a.norms a.codes.row i = .ok v
  unfold quantizedRow Pq.reconstruct
  rw [hrow]
  simp only [Res.ok_bind]
  rw [hv]
  simp only [Res.map_ok, Res.ok_bind]
  cases hn : a.norms with
  | none => exact ⟨_, rfl⟩
  | some ns =>
    have hns : i < ns.length := by rw [h.norms ns hn]; exact hi
    simp only [List.getElem?_eq_getElem hns]
    exact ⟨_, rfl⟩

end

theorem SameRows.rowsTotal {S T F : Type} [Storage S F] [Storage T F] {s : S} {t : T} (h : SameRows s t)
    (ht : RowsTotal t) : RowsTotal s := by
  intro i hi
  rw [h.1] at hi
  rw [h.2.1]; exact ht i hi

theorem SameRows.rowsSized {S T F : Type} [Storage S F] [Storage T F] {s : S} {t : T} (h : SameRows s t)
    (ht : RowsSized t) : RowsSized s := by
  intro i v hv
  rw [h.2.1] at hv
  rw [h.1]; exact ht i v hv

/-- Storages that can be looked up: rectangular matrices, valid codes; a mapped array must lie inside its file,
and a mapped quantized array must be readable. -/
def UsableStorage [Scalar F32] : StorageWrap → Prop
  | .ndArray a => a.inner.WF
  | .quantized a => a.WF ∧ a.CodesOk
  | .mmapArray m => ∃ d pos p, mmapNdArray d pos = .ok (m, p) ∧ p ≤ d.length
  | .mmapQuantized m => ∃ d pos p a, (readChunk : Rd (QuantizedArray F32)) d pos = .ok (a, p) ∧
      mmapQuantizedArray d pos = .ok (m, p) ∧ a.WF ∧ a.CodesOk

theorem UsableStorage.rows [Scalar F32] {s : StorageWrap} (h : UsableStorage s) : RowsSized s ∧ RowsTotal s := by
  cases s with
  | ndArray a => exact ⟨NdArray.rowsSized (a := a) h, NdArray.rowsTotal a⟩
  | quantized a => exact ⟨QuantizedArray.rowsSized (a := a) h.1, QuantizedArray.rowsTotal (a := a) h.1 h.2⟩
  | mmapArray m =>
    obtain ⟨d, pos, p, hm, hp⟩ := h
    have h59 := c59_partial d pos p m hm hp
    constructor
    · intro i v hv
      have hv : embedding m i = .ok v := hv
      by_cases hi : i < (shape m).1
      · obtain ⟨v', hv', hl⟩ := h59 i hi
        rw [hv] at hv'; cases hv'; exact hl
      · have hv : MmapArray.row m i = .ok v := hv
        unfold MmapArray.row at hv
        have hi : ¬ i < m.nRows := hi
        rw [if_neg hi] at hv; cases hv
    · intro i hi
      obtain ⟨v, hv, _⟩ := h59 i hi
      exact ⟨v, hv⟩
  | mmapQuantized m =>
    obtain ⟨d, pos, p, a, ha, hm, hw, hc⟩ := h
    obtain ⟨m', hm', hsame, _⟩ := c21_quantized d pos p a ha
    rw [hm] at hm'; cases hm'
    exact ⟨SameRows.rowsSized (s := m) hsame (QuantizedArray.rowsSized hw),
      SameRows.rowsTotal (s := m) hsame (QuantizedArray.rowsTotal hw hc)⟩

/-- C36 for the wrapper types: embeddings built by the constructor from a usable vocabulary and a usable
storage; no lookup panics. -/
theorem c36_wrap {T : Type} [Scalar F32] (metadata : Option (Metadata T)) (v : VocabWrap) (s : StorageWrap)
    (n : NdNorms F32) (e : Embeddings T VocabWrap StorageWrap F32)
    (he : Embeddings.new metadata v s n = .ok e) (hv : UsableVocab v) (hs : UsableStorage s)
    (hsum : (shape s).2 = 1 → ∀ xs : List F32, Scalar.sum xs = xs.foldl Scalar.add Scalar.zero) :
    (∀ w, ∃ r, e.embedding w = .ok r) ∧
    (∀ w t, t.length = e.dims → ∃ r, e.embeddingInto w t = .ok r) ∧
    (∀ w, ∃ r, e.embeddingWithNorm w = .ok r) ∧
    ∀ order : List (Str × List Nat) → List (Str × List Nat), (∀ l, (order l).Perm l) →
      ∀ words, ∃ r, e.embeddingBatch order words = .ok r := by
  obtain ⟨k, hk, hin⟩ := hv.inside
  obtain ⟨hok, hpanic⟩ := c36_new metadata v s n k hk
  by_cases hcond : Vocab.wordsLen v = n.inner.length ∧ k = (shape s).1
  · rw [hok hcond] at he
    cases he
    exact c36_no_panic _ hv.total ⟨k, hk, hin⟩
      ⟨by show Vocab.vocabLen v = _; rw [hk, hcond.2], by intro m hm; cases hm; exact hcond.1.symm⟩
      (c47_wrap s) hs.rows.1 hs.rows.2 hsum
  · rw [hpanic hcond] at he; cases he

/-- Arithmetic for the examples: integers with a fixed order of summation. -/
@[instance_reducible] def exampleScalar : Scalar F32 where
  zero := 0
  one := 1
  add := (· + ·)
  sub := (· - ·)
  mul := (· * ·)
  div := (· / ·)
  sqrt := id
  dot a b := (List.zipWith (· * ·) a b).foldl (· + ·) 0
  sum xs := xs.foldl (· + ·) 0
  isZero := (· == 0)

/-- A vocabulary with two words and four buckets. -/
def exampleVocab : VocabWrap :=
  match (HashIndexer.new 2 : Res HashIndexer) with
  | .ok ix => match (SubwordVocab.newWithBoundaries [['a'], ['b', 'c']] 1 2 ix ['<'] ['>'] : Res BucketSubwordVocab) with
    | .ok v => .bucket v
    | _ => .simple ⟨HMap.empty, []⟩
  | _ => .simple ⟨HMap.empty, []⟩

/-- Six rows of two components. -/
def exampleStorage : StorageWrap := .ndArray ⟨⟨2, [[1, 2], [3, 4], [5, 6], [7, 8], [9, 10], [11, 12]]⟩⟩

/-- Embeddings with norms for the examples below. -/
def exampleLookup : Embeddings Str VocabWrap StorageWrap F32 := ⟨none, exampleStorage, exampleVocab, some ⟨[7, 8]⟩⟩

theorem exampleVocab_usable : UsableVocab exampleVocab :=
  ⟨2, _, [['a'], ['b', 'c']], 1, 2, ['<'], ['>'], rfl, rfl, by decide, by decide⟩

attribute [local instance] exampleScalar in
theorem exampleStorage_usable : UsableStorage exampleStorage := by
  intro r hr; revert r; decide

attribute [local instance] exampleScalar in
/-- The hypotheses of `c36_wrap` hold for a concrete case; so do those of `c36_new`. -/
example : Embeddings.new none exampleVocab exampleStorage ⟨[7, 8]⟩ = .ok exampleLookup ∧
    UsableVocab exampleVocab ∧ UsableStorage exampleStorage ∧
    (∀ xs : List F32, Scalar.sum xs = xs.foldl Scalar.add Scalar.zero) :=
  ⟨rfl, exampleVocab_usable, exampleStorage_usable, fun _ => rfl⟩

attribute [local instance] exampleScalar in
/-- The hypotheses of `c34_into`, `c35_batch_into`, `c35_batch`, `c36_no_panic` and `c40_iter` hold for a concrete
case, and lookups find known words and answer unknown words from subwords. -/
example : BatchIsRows (F := F32) exampleLookup.storage ∧ RowsSized (F := F32) exampleLookup.storage ∧
    RowsTotal (F := F32) exampleLookup.storage ∧ VocabTotal exampleLookup.vocab ∧
    IndicesInside exampleLookup.vocab ∧
    exampleLookup.embedding ['a'] = .ok (some [1, 2]) ∧
    (∃ v, exampleLookup.embedding ['b'] = .ok (some v)) ∧
    exampleLookup.embeddingInto ['a'] [0, 0] = .ok (true, [1, 2]) ∧
    exampleLookup.embeddingWithNorm ['b', 'c'] = .ok (some ([3, 4], 8)) ∧
    exampleLookup.embeddingBatch id [['a'], ['b', 'c'], ['a']] = .ok (⟨2, [[1, 2], [3, 4], [1, 2]]⟩, [true, true, true]) ∧
    exampleLookup.iterWithNorms = .ok [(['a'], [1, 2], 7), (['b', 'c'], [3, 4], 8)] :=
  ⟨c47_wrap _, exampleStorage_usable.rows.1, exampleStorage_usable.rows.2, exampleVocab_usable.total,
    exampleVocab_usable.inside, by decide +kernel, ⟨_, rfl⟩, by decide +kernel, by decide +kernel,
    by decide +kernel, by decide +kernel⟩

attribute [local instance] exampleScalar in
/-- `c34_wrong_length`, `c39_with_norm`, `c39_with_norm_ok`, `c39_iter` and `c40_total` applied to it. -/
example := And.intro (c34_wrong_length exampleLookup ['a'] [0, 0, 0] (by decide))
  (c39_with_norm exampleLookup ['b', 'c'] (some ([3, 4], 8)) (by decide +kernel))
attribute [local instance] exampleScalar in
example := c39_with_norm_ok exampleLookup ['b', 'c'] (some [3, 4]) (by decide +kernel)
  (by rw [show Vocab.idx exampleLookup.vocab ['b', 'c'] = .ok (some (.word 1)) by decide +kernel]
      intro i h n hn; cases h; cases hn; decide)
attribute [local instance] exampleScalar in
example := And.intro (c39_iter exampleLookup [(['a'], [1, 2], 7), (['b', 'c'], [3, 4], 8)] (by decide +kernel))
  (c40_total exampleLookup exampleStorage_usable.rows.2 (by decide))

attribute [local instance] exampleScalar in
/-- `c35_fails` applied to embeddings without a row for the second word. -/
example := c35_fails ({ exampleLookup with storage := .ndArray ⟨⟨2, [[1, 2]]⟩⟩ } : Embeddings Str VocabWrap StorageWrap F32)
  (c47_wrap _) (show UsableStorage (.ndArray ⟨⟨2, [[1, 2]]⟩⟩) by intro r hr; revert r; decide).rows.1 (fun _ _ => rfl)
  id (fun _ => List.Perm.refl _) [['a'], ['b', 'c']] ⟨2, [[0, 0], [0, 0]]⟩ ['b', 'c'] (by decide)
  (by intro r h; rw [show Embeddings.embedding _ _ = Res.panic from rfl] at h; cases h)

/-! ## C58 -/

/-- Specification: two vocabularies answer every question alike and write the same chunk. -/
structure SameVocab {V V' : Type} [Vocab V] [Vocab V'] [WriteChunk V] [WriteChunk V'] (v : V) (v' : V') :
    Prop where
  idx : ∀ w, Vocab.idx v w = Vocab.idx v' w
  words : Vocab.words v = Vocab.words v'
  wordsLen : Vocab.wordsLen v = Vocab.wordsLen v'
  vocabLen : Vocab.vocabLen v = Vocab.vocabLen v'
  id : chunkId v = chunkId v'
  len : ∀ off, chunkLen v off = chunkLen v' off
  write : ∀ off, writeChunk v off = writeChunk v' off

/-- Specification: two storages have the same rows and write the same chunk. -/
structure SameStorage {S S' F : Type} [Storage S F] [Storage S' F] [WriteChunk S] [WriteChunk S'] (s : S)
    (s' : S') : Prop where
  rows : SameRows s s'
  id : chunkId s = chunkId s'
  len : ∀ off, chunkLen s off = chunkLen s' off
  write : ∀ off, writeChunk s off = writeChunk s' off

/-- Specification: two embeddings cannot be told apart through lookups, iteration, accessors or the file they
write. -/
structure SameEmbeddings {T V S V' S' : Type} [Toml T] [Scalar F32] [Vocab V] [Vocab V'] [Storage S F32]
    [Storage S' F32] [WriteChunk V] [WriteChunk V'] [WriteChunk S] [WriteChunk S']
    (e : Embeddings T V S F32) (e' : Embeddings T V' S' F32) : Prop where
  metadata : e'.metadata = e.metadata
  norms : e'.norms = e.norms
  dims : e'.dims = e.dims
  len : e'.len = e.len
  embedding : ∀ w, e'.embedding w = e.embedding w
  embeddingInto : ∀ w t, e'.embeddingInto w t = e.embeddingInto w t
  withNorm : ∀ w, e'.embeddingWithNorm w = e.embeddingWithNorm w
  batch : ∀ order words, e'.embeddingBatch order words = e.embeddingBatch order words
  batchInto : ∀ order words out, e'.embeddingBatchInto order words out = e.embeddingBatchInto order words out
  iter : e'.iter = e.iter
  iterWithNorms : e'.iterWithNorms = e.iterWithNorms
  write : ∀ off, e'.write off = e.write off
  writeLen : ∀ off, e'.writeLen off = e.writeLen off

/-- C58: converting vocabulary and storage to types that behave alike changes nothing observable. -/
theorem c58_into {T V S V' S' : Type} [Toml T] [Scalar F32] [Vocab V] [Vocab V'] [Storage S F32]
    [Storage S' F32] [WriteChunk V] [WriteChunk V'] [WriteChunk S] [WriteChunk S']
    (fv : V → V') (fs : S → S') (e : Embeddings T V S F32)
    (hv : SameVocab e.vocab (fv e.vocab)) (hs : SameStorage (F := F32) e.storage (fs e.storage)) :
    SameEmbeddings e (e.into fv fs) := by
  have hdims : (e.into fv fs).dims = e.dims := by
    show (shape (fs e.storage)).2 = _; rw [← hs.rows.1]; rfl
  have hnorm : ∀ i, (e.into fv fs).normAt i = e.normAt i := fun i => rfl
  have hinto : ∀ w t, (e.into fv fs).embeddingInto w t = e.embeddingInto w t := by
    intro w t
    unfold Embeddings.embeddingInto
    rw [hdims]
    show (Res.assert _ >>= fun _ => Vocab.idx (fv e.vocab) w >>= _) = _
    rw [← hv.idx]
    congr 1; funext _; congr 1; funext r
    rcases r with _ | ⟨i | is⟩
    · rfl
    · show (Storage.embedding (fs e.storage) i >>= _) = _
      rw [← hs.rows.2.1]
    · show (Storage.embeddings (fs e.storage) is >>= _) = _
      rw [← hs.rows.2.2]
  have hbatchInto : ∀ order words out,
      (e.into fv fs).embeddingBatchInto order words out = e.embeddingBatchInto order words out := by
    intro order words out
    have hstep : (e.into fv fs).batchStep = e.batchStep := by
      funext st p
      unfold Embeddings.batchStep
      simp only [hinto]
    unfold Embeddings.embeddingBatchInto
    rw [hdims, hstep]
  have hids : (e.into fv fs).chunkIds = e.chunkIds := by
    show _ ++ [chunkId (fv e.vocab), chunkId (fs e.storage)] ++ _ = _
    rw [← hv.id, ← hs.id]; rfl
  refine ⟨rfl, rfl, hdims, hv.wordsLen.symm, ?_, hinto, ?_, ?_, hbatchInto, ?_, ?_, ?_, ?_⟩
  · intro w
    unfold Embeddings.embedding
    show (Vocab.idx (fv e.vocab) w >>= _) = _
    rw [← hv.idx]
    congr 1; funext r
    rcases r with _ | ⟨i | is⟩
    · rfl
    · show (Storage.embedding (fs e.storage) i >>= _) = _
      rw [← hs.rows.2.1]
    · show (Storage.embeddings (fs e.storage) is >>= _) = _
      rw [← hs.rows.2.2]
  · intro w
    unfold Embeddings.embeddingWithNorm
    show (Vocab.idx (fv e.vocab) w >>= _) = _
    rw [← hv.idx]
    congr 1; funext r
    rcases r with _ | ⟨i | is⟩
    · rfl
    · show (Storage.embedding (fs e.storage) i >>= _) = _
      rw [← hs.rows.2.1]; rfl
    · show (Storage.embeddings (fs e.storage) is >>= _) = _
      rw [← hs.rows.2.2]
  · intro order words
    unfold Embeddings.embeddingBatch
    rw [hbatchInto, hdims]
  · unfold Embeddings.iter
    show (Vocab.words (fv e.vocab)).zipIdx.mapM (fun p => Storage.embedding (fs e.storage) p.2 >>= _) = _
    rw [← hv.words]
    simp only [← hs.rows.2.1]
  · unfold Embeddings.iterWithNorms
    show (Vocab.words (fv e.vocab)).zipIdx.mapM (fun p => Storage.embedding (fs e.storage) p.2 >>= _) = _
    rw [← hv.words]
    simp only [← hs.rows.2.1, hnorm]
  · intro off
    have h1 : (writeChunk (fv e.vocab) : Nat → W) = writeChunk e.vocab := funext fun o => (hv.write o).symm
    have h2 : (writeChunk (fs e.storage) : Nat → W) = writeChunk e.storage := funext fun o => (hs.write o).symm
    unfold Embeddings.write
    rw [hids]
    show Embeddings.andThen _ (Embeddings.andThen _ (Embeddings.andThen (writeChunk (fv e.vocab))
      (Embeddings.andThen (writeChunk (fs e.storage)) _))) off = _
    rw [h1, h2]; rfl
  · intro off
    have h1 : (chunkLen (fv e.vocab) : Nat → Nat) = chunkLen e.vocab := funext fun o => (hv.len o).symm
    have h2 : (chunkLen (fs e.storage) : Nat → Nat) = chunkLen e.storage := funext fun o => (hs.len o).symm
    unfold Embeddings.writeLen
    rw [hids]
    rw [show (e.into fv fs).vocab = fv e.vocab from rfl, show (e.into fv fs).storage = fs e.storage from rfl,
      h1, h2]
    rfl

/-- C58: every vocabulary behaves like its wrapped version (src/chunks/vocab/wrappers.rs:76-104). -/
theorem c58_vocab :
    (∀ v : SimpleVocab, SameVocab v (VocabWrap.simple v)) ∧
    (∀ v : BucketSubwordVocab, SameVocab v (VocabWrap.bucket v)) ∧
    (∀ v : FastTextSubwordVocab, SameVocab v (VocabWrap.fastText v)) ∧
    (∀ v : ExplicitSubwordVocab, SameVocab v (VocabWrap.explicit v)) ∧
    (∀ v : FloretSubwordVocab, SameVocab v (VocabWrap.floret v)) ∧
    ∀ v : VocabWrap, SameVocab v v := by
  refine ⟨?_, ?_, ?_, ?_, ?_, ?_⟩ <;> intro v <;>
    exact ⟨fun _ => rfl, rfl, rfl, rfl, rfl, fun _ => rfl, fun _ => rfl⟩

/-- C58: every storage behaves like its wrapped version (src/chunks/storage/wrappers.rs:96-120, :289-300). -/
theorem c58_storage [Scalar F32] :
    (∀ a : NdArray F32, SameStorage (F := F32) a (StorageWrap.ndArray a)) ∧
    (∀ a : QuantizedArray F32, SameStorage (F := F32) a (StorageWrap.quantized a)) ∧
    (∀ a : MmapArray, SameStorage (F := F32) a (StorageWrap.mmapArray a)) ∧
    (∀ a : MmapQuantizedArray, SameStorage (F := F32) a (StorageWrap.mmapQuantized a)) ∧
    (∀ a : NdArray F32, SameStorage (F := F32) a (StorageViewWrap.ndArray a)) ∧
    ∀ a : MmapArray, SameStorage (F := F32) a (StorageViewWrap.mmapArray a) := by
  refine ⟨?_, ?_, ?_, ?_, ?_, ?_⟩ <;> intro a <;>
    exact ⟨⟨rfl, fun _ => rfl, fun _ => rfl⟩, rfl, fun _ => rfl, fun _ => rfl⟩

/-- A conversion of the code, src/embeddings.rs:413: bucket vocabulary and quantized array to the wrappers. -/
example {T : Type} [Toml T] [Scalar F32] (e : Embeddings T BucketSubwordVocab (QuantizedArray F32) F32) :
    SameEmbeddings e (e.into VocabWrap.bucket StorageWrap.quantized) :=
  c58_into _ _ e (c58_vocab.2.1 _) (c58_storage.2.1 _)

end FF
