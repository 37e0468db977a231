import Verif.Lemmas.Vocab

namespace FF

open Rd

/-! ## Renumbering -/

/-- Insert-if-absent numbering of old indices. -/
def o2nStep (m : HMap Nat Nat) (i : Nat) : HMap Nat Nat :=
  match m.get i with
  | some _ => m
  | none => m.insert i m.len

/-- The renumbering after a list of old indices. -/
def o2nFrom (m : HMap Nat Nat) (l : List Nat) : HMap Nat Nat := l.foldl o2nStep m

theorem o2nStep_get {m : HMap Nat Nat} {i j : Nat} (h : m.get i = some j) (k : Nat) :
    (o2nStep m k).get i = some j := by
  unfold o2nStep
  cases hk : m.get k with
  | some x => simpa
  | none =>
    simp only [HMap.get_insert]
    rw [if_neg]
    · exact h
    · rintro rfl; rw [hk] at h; simp at h

theorem o2nFrom_get {m : HMap Nat Nat} {i j : Nat} (h : m.get i = some j) (l : List Nat) :
    (o2nFrom m l).get i = some j := by
  induction l generalizing m with
  | nil => exact h
  | cons k l ih => exact ih (o2nStep_get h k)

theorem o2nStep_mem_keys {m : HMap Nat Nat} (i k : Nat) :
    k ∈ (o2nStep m i).keys ↔ k = i ∨ k ∈ m.keys := by
  unfold o2nStep
  cases h : m.get i with
  | some x =>
    have : i ∈ m.keys := by
      apply Classical.byContradiction; intro hn
      rw [HMap.get_eq_none_iff.mpr hn] at h; simp at h
    constructor
    · exact .inr
    · rintro (rfl | h)
      · exact this
      · exact h
  | none => exact HMap.mem_keys_insert _ _ _ _

theorem o2nFrom_mem_keys {m : HMap Nat Nat} (l : List Nat) (k : Nat) :
    k ∈ (o2nFrom m l).keys ↔ k ∈ l ∨ k ∈ m.keys := by
  induction l generalizing m with
  | nil => simp [o2nFrom]
  | cons i l ih =>
    show k ∈ (o2nFrom (o2nStep m i) l).keys ↔ _
    rw [ih, o2nStep_mem_keys, List.mem_cons]
    constructor
    · rintro (h | h | h) <;> simp [h]
    · rintro ((h | h) | h) <;> simp [h]

/-- Values are `0, 1, 2, …` in insertion order, keys are distinct. -/
def Dense (m : HMap Nat Nat) : Prop := m.keys.Nodup ∧ m.entries.map (·.2) = List.range m.len

theorem dense_empty : Dense HMap.empty := ⟨by simp, rfl⟩

theorem HMap.insert_fresh {K V : Type} [DecidableEq K] {m : HMap K V} {k : K} (h : m.get k = none) (v : V) :
    m.insert k v = ⟨m.entries ++ [(k, v)]⟩ := by
  unfold HMap.get at h
  simp [HMap.insert, h]

theorem Dense.step {m : HMap Nat Nat} (h : Dense m) (i : Nat) : Dense (o2nStep m i) := by
  unfold o2nStep
  cases hk : m.get i with
  | some x => exact h
  | none =>
    refine ⟨HMap.nodup_keys_insert h.1 _ _, ?_⟩
    simp only [HMap.insert_fresh hk]
    simp [HMap.len, List.range_succ]
    exact h.2

theorem Dense.from {m : HMap Nat Nat} (h : Dense m) (l : List Nat) : Dense (o2nFrom m l) := by
  induction l generalizing m with
  | nil => exact h
  | cons i l ih => exact ih (h.step i)

theorem Dense.get_lt {m : HMap Nat Nat} (h : Dense m) {i j : Nat} (hg : m.get i = some j) : j < m.len := by
  have := HMap.mem_entries_of_get hg
  have h2 : j ∈ m.entries.map (·.2) := List.mem_map.mpr ⟨_, this, rfl⟩
  rw [h.2] at h2
  simpa using h2

theorem Dense.surj {m : HMap Nat Nat} (h : Dense m) {j : Nat} (hj : j < m.len) : ∃ i, m.get i = some j := by
  have h2 : j ∈ m.entries.map (·.2) := by rw [h.2]; simpa
  obtain ⟨⟨i, j'⟩, hm, rfl⟩ := List.mem_map.mp h2
  exact ⟨i, HMap.get_of_mem_entries h.1 hm⟩

theorem Dense.inj {m : HMap Nat Nat} (h : Dense m) {i i' j : Nat} (h1 : m.get i = some j)
    (h2 : m.get i' = some j) : i = i' := by
  have e1 := HMap.mem_entries_of_get h1
  have e2 := HMap.mem_entries_of_get h2
  obtain ⟨a, ha, ha'⟩ := List.getElem_of_mem e1
  obtain ⟨b, hb, hb'⟩ := List.getElem_of_mem e2
  have key : ∀ c (hc : c < m.entries.length), (m.entries[c]).2 = c := by
    intro c hc
    have : (m.entries.map (·.2))[c]'(by simpa) = (m.entries[c]).2 := by simp
    rw [← this]
    simp [h.2]
  have ea := key a ha
  have eb := key b hb
  rw [ha'] at ea; rw [hb'] at eb
  have eab : a = b := by simp only at ea eb; omega
  subst eab
  rw [ha'] at hb'
  exact (Prod.mk.inj hb').1

/-! ## Closed form of `new_with_indices` -/

theorem ExplicitIndexer.step_eq (o2n : HMap Nat Nat) (index : HMap Str Nat) (ngrams : List Str)
    (p : Str × Nat) :
    ExplicitIndexer.step (o2n, index, ngrams) p =
      match index.get p.1 with
      | some _ => .panic
      | none => .ok (o2nStep o2n p.2, index.insert p.1 (((o2nStep o2n p.2).get p.2).getD 0),
          ngrams ++ [p.1]) := by
  unfold ExplicitIndexer.step o2nStep
  cases h : o2n.get p.2 with
  | some i => simp only [h, Option.getD_some]; rfl
  | none => simp only [h, HMap.get_insert, if_true, Option.getD_some]; rfl

theorem newWithIndices_fold (t : List (Str × Nat)) (o2n : HMap Nat Nat) (index : HMap Str Nat)
    (ngrams : List Str) (hk : index.keys = ngrams) (hn : ngrams.Nodup) :
    t.foldlM ExplicitIndexer.step (o2n, index, ngrams) =
      if (ngrams ++ t.map (·.1)).Nodup then
        .ok (o2nFrom o2n (t.map (·.2)),
          ⟨index.entries ++ t.map fun p => (p.1, ((o2nFrom o2n (t.map (·.2))).get p.2).getD 0)⟩,
          ngrams ++ t.map (·.1))
      else .panic := by
  induction t generalizing o2n index ngrams with
  | nil => simp [o2nFrom, hn]
  | cons p t ih =>
    rw [List.foldlM_cons, ExplicitIndexer.step_eq]
    cases hg : index.get p.1 with
    | some x =>
      have hmem : p.1 ∈ ngrams := by
        rw [← hk]
        apply Classical.byContradiction; intro hh
        rw [HMap.get_eq_none_iff.mpr hh] at hg; simp at hg
      have : ¬ (ngrams ++ (p :: t).map (·.1)).Nodup := by
        rw [List.nodup_append]
        rintro ⟨_, _, h3⟩
        exact h3 p.1 hmem p.1 (by simp) rfl
      rw [if_neg this]; rfl
    | none =>
      have hnm : p.1 ∉ ngrams := by rw [← hk]; exact HMap.get_eq_none_iff.mp hg
      have hn' : (ngrams ++ [p.1]).Nodup := by
        rw [List.nodup_append]
        exact ⟨hn, by simp, by simp; intro a ha he; exact hnm (he ▸ ha)⟩
      simp only [Res.ok_bind]
      rw [ih _ _ _ (by
        rw [HMap.keys_insert, if_neg (by rw [hk]; exact hnm), hk]) hn']
      have e1 : ngrams ++ [p.1] ++ t.map (·.1) = ngrams ++ (p :: t).map (·.1) := by simp
      rw [e1]
      have e2 : o2nFrom (o2nStep o2n p.2) (t.map (·.2)) = o2nFrom o2n ((p :: t).map (·.2)) := rfl
      rw [e2]
      split
      · congr 3
        rw [HMap.insert_fresh hg]
        have hget : ∃ j, (o2nStep o2n p.2).get p.2 = some j := by
          cases hc : (o2nStep o2n p.2).get p.2 with
          | some j => exact ⟨j, rfl⟩
          | none =>
            have := HMap.get_eq_none_iff.mp hc
            exact absurd ((o2nStep_mem_keys _ _).mpr (.inl rfl)) this
        obtain ⟨j, hj⟩ := hget
        have hj' := o2nFrom_get hj (t.map (·.2))
        rw [e2] at hj'
        simp only [List.map_cons, HMap.mk.injEq, List.append_assoc, List.singleton_append]
        rw [hj]
        simp only [List.map_cons] at hj'
        rw [hj']
      · rfl

theorem newWithIndices_eq (t : List (Str × Nat)) :
    ExplicitIndexer.newWithIndices t =
      if (t.map (·.1)).Nodup then
        .ok (⟨t.map (·.1), ⟨t.map fun p => (p.1, ((o2nFrom HMap.empty (t.map (·.2))).get p.2).getD 0)⟩,
          (o2nFrom HMap.empty (t.map (·.2))).len⟩, o2nFrom HMap.empty (t.map (·.2)))
      else .panic := by
  unfold ExplicitIndexer.newWithIndices
  rw [newWithIndices_fold t HMap.empty HMap.empty [] rfl (by simp)]
  simp only [List.nil_append]
  split
  · simp [HMap.empty]
  · rfl

/-- The identity numbering of `0 … n-1`. -/
def idMap (n : Nat) : HMap Nat Nat := ⟨(List.range n).map fun i => (i, i)⟩

theorem find_id (l : List Nat) (j : Nat) :
    HMap.find j (l.map fun i => (i, i)) = if j ∈ l then some j else none := by
  induction l with
  | nil => rfl
  | cons a l ih =>
    simp only [List.map_cons, HMap.find, ih, List.mem_cons]
    by_cases h : a = j
    · simp [h]
    · have h' : ¬ j = a := fun e => h e.symm
      simp [h, h']

theorem idMap_get (n j : Nat) : (idMap n).get j = if j < n then some j else none := by
  simp [HMap.get, idMap, find_id]

@[simp] theorem idMap_len (n) : (idMap n).len = n := by simp [idMap, HMap.len]

theorem o2nFrom_idMap {m : HMap Nat Nat} (hd : Dense m) (l : List Nat) (F : Nat → Nat)
    (hF : ∀ i ∈ l, (o2nFrom m l).get i = some (F i)) :
    o2nFrom (idMap m.len) (l.map F) = idMap (o2nFrom m l).len := by
  induction l generalizing m with
  | nil => rfl
  | cons i l ih =>
    have hFi := hF i (by simp)
    have hih := ih (m := o2nStep m i) (hd.step i) (fun k hk => hF k (by simp [hk]))
    show o2nFrom (o2nStep (idMap m.len) (F i)) (l.map F) = idMap (o2nFrom (o2nStep m i) l).len
    rw [← hih]
    congr 1
    cases hg : m.get i with
    | some j =>
      have h1 := o2nFrom_get hg (i :: l)
      have hj : F i = j := by rw [hFi] at h1; simpa using h1
      have h2 := hd.get_lt hg
      simp [o2nStep, hg, idMap_get, hj, h2]
    | none =>
      have h0 : (o2nStep m i).get i = some m.len := by simp [o2nStep, hg, HMap.get_insert]
      have h1 : (o2nFrom m (i :: l)).get i = some m.len := o2nFrom_get h0 l
      have hj : F i = m.len := by rw [hFi] at h1; simpa using h1
      have hlen : (o2nStep m i).len = m.len + 1 := by
        simp [o2nStep, hg, HMap.insert_fresh hg, HMap.len]
      rw [hlen, hj]
      simp only [o2nStep, idMap_get, Nat.lt_irrefl, if_false]
      rw [HMap.insert_fresh (by simp [idMap_get])]
      simp [idMap, HMap.len, List.range_succ]

/-- The explicit indexers that exist: results of `new_with_indices` (and of `new`, see
`ExplicitIndexer.new_built`). -/
def ExplicitIndexer.Built (ix : ExplicitIndexer) : Prop :=
  ∃ t o2n, ExplicitIndexer.newWithIndices t = .ok (ix, o2n)

theorem ExplicitIndexer.Built.nodup {ix : ExplicitIndexer} (h : ix.Built) : ix.ngrams.Nodup := by
  obtain ⟨t, o2n, h⟩ := h
  rw [newWithIndices_eq] at h
  split at h
  · rename_i hn
    simp only [Res.ok.injEq, Prod.mk.injEq] at h
    rw [← h.1]; exact hn
  · simp at h

theorem ExplicitIndexer.Built.keys {ix : ExplicitIndexer} (h : ix.Built) : ix.index.keys = ix.ngrams := by
  obtain ⟨t, o2n, h⟩ := h
  rw [newWithIndices_eq] at h
  split at h
  · simp only [Res.ok.injEq, Prod.mk.injEq] at h
    rw [← h.1]
    simp [HMap.keys]
  · simp at h

theorem ExplicitIndexer.Built.reread {ix : ExplicitIndexer} (h : ix.Built) :
    ExplicitIndexer.newWithIndices ix.index.entries = .ok (ix, idMap ix.bound) := by
  have hn := h.nodup
  have hk := h.keys
  obtain ⟨t, o2n, h⟩ := h
  rw [newWithIndices_eq] at h
  split at h
  · simp only [Res.ok.injEq, Prod.mk.injEq] at h
    rw [newWithIndices_eq, show ix.index.entries.map (·.1) = ix.index.keys from rfl, hk, if_pos hn]
    have hix := h.1
    have hF : ∀ i ∈ t.map (·.2), (o2nFrom HMap.empty (t.map (·.2))).get i =
        some (((o2nFrom HMap.empty (t.map (·.2))).get i).getD 0) := by
      intro i hi
      cases hc : (o2nFrom HMap.empty (t.map (·.2))).get i with
      | some j => rfl
      | none =>
        exact absurd ((o2nFrom_mem_keys _ _).mpr (.inl hi)) (HMap.get_eq_none_iff.mp hc)
    have key := o2nFrom_idMap dense_empty (t.map (·.2))
      (fun i => ((o2nFrom HMap.empty (t.map (·.2))).get i).getD 0) hF
    have hvals : ix.index.entries.map (·.2) =
        (t.map (·.2)).map fun i => ((o2nFrom HMap.empty (t.map (·.2))).get i).getD 0 := by
      rw [← hix]; simp
    have key' : o2nFrom HMap.empty (ix.index.entries.map (·.2)) = idMap ix.bound := by
      rw [hvals]
      have : (HMap.empty : HMap Nat Nat) = idMap (HMap.empty : HMap Nat Nat).len := rfl
      rw [show ix.bound = (o2nFrom HMap.empty (t.map (·.2))).len by rw [← hix]]
      rw [← key]; rfl
    have hd : Dense (o2nFrom HMap.empty (t.map (·.2))) := dense_empty.from _
    have hlt : ∀ p ∈ ix.index.entries, p.2 < ix.bound := by
      intro p hp
      have : p.2 ∈ ix.index.entries.map (·.2) := List.mem_map.mpr ⟨p, hp, rfl⟩
      rw [hvals] at this
      obtain ⟨i, hi, he⟩ := List.mem_map.mp this
      rw [show ix.bound = (o2nFrom HMap.empty (t.map (·.2))).len by rw [← hix]]
      exact hd.get_lt (i := i) (by rw [hF i hi, ← he])
    rw [key']
    congr 2
    obtain ⟨ng, ⟨es⟩, b⟩ := ix
    simp only [ExplicitIndexer.mk.injEq, idMap_len, and_true, true_and, HMap.mk.injEq]
    simp only at hlt
    conv => rhs; rw [← List.map_id es]
    apply List.map_congr_left
    intro p hp
    have := hlt p hp
    simp [idMap_get, this]
  · simp at h

theorem foldIdx_entries {m : HMap Str Nat} {l : List Str} {n : Nat} (hn : l.Nodup)
    (hd : ∀ w ∈ l, w ∉ m.keys) : (foldIdx m l n).entries = m.entries ++ l.zipIdx n := by
  induction l generalizing m n with
  | nil => simp [foldIdx]
  | cons x l ih =>
    rw [foldIdx_cons]
    rw [List.nodup_cons] at hn
    have hx : x ∉ m.keys := hd x (by simp)
    rw [ih hn.2 (by
      intro w hw hk
      rcases (HMap.mem_keys_insert _ _ _ _).mp hk with rfl | hk
      · exact hn.1 hw
      · exact hd w (by simp [hw]) hk)]
    rw [HMap.insert_fresh (HMap.get_eq_none_iff.mpr hx)]
    simp [List.zipIdx_cons]

theorem indexMap_entries {l : List Str} (hn : l.Nodup) : (indexMap l).entries = l.zipIdx := by
  have := foldIdx_entries (m := HMap.empty) (n := 0) hn (by simp)
  simpa [foldIdx, indexMap, HMap.empty] using this

theorem o2nFrom_range' (m k : Nat) : o2nFrom (idMap m) (List.range' m k) = idMap (m + k) := by
  induction k generalizing m with
  | zero => rfl
  | succ k ih =>
    rw [List.range'_succ]
    show o2nFrom (o2nStep (idMap m) m) _ = _
    have : o2nStep (idMap m) m = idMap (m + 1) := by
      simp only [o2nStep, idMap_get, Nat.lt_irrefl, if_false]
      rw [HMap.insert_fresh (by simp [idMap_get])]
      simp [idMap, HMap.len, List.range_succ]
    rw [this, ih]; congr 1; omega

theorem ExplicitIndexer.new_eq_ok {ng : List Str} {ix : ExplicitIndexer} :
    ExplicitIndexer.new ng = .ok ix ↔ ng.Nodup ∧ ix = ⟨ng, indexMap ng, ng.length⟩ := by
  unfold ExplicitIndexer.new
  by_cases h : ng.Nodup
  · have := (indexMap_len_iff ng).mpr h
    simp [Res.assert, this, h, eq_comm]
  · have : ¬ (indexMap ng).len = ng.length := fun e => h ((indexMap_len_iff ng).mp e)
    simp [Res.assert, this, h]

theorem ExplicitIndexer.new_eq_newWithIndices {ng : List Str} {ix : ExplicitIndexer}
    (h : ExplicitIndexer.new ng = .ok ix) :
    ExplicitIndexer.newWithIndices ng.zipIdx = .ok (ix, idMap ng.length) := by
  obtain ⟨hn, rfl⟩ := ExplicitIndexer.new_eq_ok.mp h
  have h1 : ng.zipIdx.map (·.1) = ng := by simp
  have h2 : ng.zipIdx.map (·.2) = List.range' 0 ng.length := by simp
  have h3 : o2nFrom HMap.empty (List.range' 0 ng.length) = idMap ng.length := by
    have := o2nFrom_range' 0 ng.length
    simpa [idMap, HMap.empty] using this
  rw [newWithIndices_eq, h1, h2, h3, if_pos hn]
  congr 2
  simp only [ExplicitIndexer.mk.injEq, idMap_len, and_true, true_and]
  have := indexMap_entries hn
  generalize indexMap ng = m at *
  obtain ⟨es⟩ := m
  simp only at this
  rw [this]
  congr 1
  conv => rhs; rw [← List.map_id ng.zipIdx]
  apply List.map_congr_left
  rintro ⟨g, i⟩ hp
  have : i < ng.length := by
    have : i ∈ ng.zipIdx.map (·.2) := List.mem_map.mpr ⟨_, hp, rfl⟩
    rw [h2] at this; simpa using this
  simp [idMap_get, this]

theorem ExplicitIndexer.new_built {ng : List Str} {ix : ExplicitIndexer}
    (h : ExplicitIndexer.new ng = .ok ix) : ix.Built := ⟨_, _, new_eq_newWithIndices h⟩

/-! ## Explicit chunks -/

theorem writeNgram_eq {ix : ExplicitIndexer} (h : ix.Built) {g : Str} {i : Nat}
    (hm : (g, i) ∈ ix.index.entries) :
    writeNgram ix g = W.u32 (strLen g) ++ W.emit (utf8 g) ++ W.u64 i := by
  have := HMap.get_of_mem_entries (m := ix.index) (by rw [h.keys]; exact h.nodup) hm
  simp [writeNgram, Indexer.indexNgram, NGram.ofStr, this]

theorem each_congr {α β : Type} {f : α → W} {g : β → W} {l : List α} {l' : List β} {k : β → α}
    (hl : l = l'.map k) (h : ∀ b ∈ l', f (k b) = g b) : W.each f l = W.each g l' := by
  subst hl
  induction l' with
  | nil => rfl
  | cons b l' ih =>
    simp only [List.map_cons, W.each]
    rw [h b (by simp), ih fun x hx => h x (by simp [hx])]

/-- Encoding of one n-gram. -/
def ngramBytes (p : Str × Nat) : Bytes := leBytes 4 (strLen p.1) ++ (utf8 p.1 ++ leBytes 8 p.2)

theorem writeNgrams_good {ix : ExplicitIndexer} (h : ix.Built) : (writeNgrams ix).Good := by
  unfold writeNgrams
  apply W.good_each
  intro g hg
  rw [← h.keys] at hg
  obtain ⟨⟨g', i⟩, hp, rfl⟩ := List.mem_map.mp hg
  rw [writeNgram_eq h hp]
  simp

/-- Writing one n-gram with a known index. -/
def ngramW (p : Str × Nat) : W := W.u32 (strLen p.1) ++ W.emit (utf8 p.1) ++ W.u64 p.2

theorem writeNgrams_bytes {ix : ExplicitIndexer} (h : ix.Built) :
    (writeNgrams ix).bytes = ix.index.entries.flatMap ngramBytes := by
  unfold writeNgrams
  have hf : ∀ p ∈ ix.index.entries, writeNgram ix p.1 = ngramW p := by
    intro p hp
    exact writeNgram_eq (g := p.1) (i := p.2) h hp
  rw [each_congr h.keys.symm hf, W.bytes_each (fun p _ => by simp [ngramW])]
  simp [W.bytes_seq, ngramW]; rfl

theorem writeExplicit_good {v : ExplicitSubwordVocab} (h : v.indexer.Built) : (writeExplicit v).Good := by
  simp [writeExplicit, writeNgrams_good h]

theorem writeExplicit_bytes {v : ExplicitSubwordVocab} (h : v.indexer.Built) :
    (writeExplicit v).bytes = leBytes 4 ChunkId.explicitSubwordVocab.code ++
      (leBytes 8 (explicitLen v - 12) ++ (leBytes 8 v.words.length ++
      (leBytes 8 v.indexer.ngrams.length ++ (leBytes 4 v.minN ++ (leBytes 4 v.maxN ++
      ((v.words.flatMap fun s => leBytes 4 (strLen s) ++ utf8 s) ++
        v.indexer.index.entries.flatMap ngramBytes)))))) := by
  simp [writeExplicit, W.bytes_seq, writeNgrams_bytes h]

theorem ngramBytes_length (es : List (Str × Nat)) :
    (es.flatMap ngramBytes).length = ((es.map (·.1)).map fun g => strLen g + 4 + 8).sum := by
  induction es with
  | nil => rfl
  | cons p es ih =>
    simp only [List.flatMap_cons, List.length_append, ih, List.map_cons, List.sum_cons]
    simp [ngramBytes, strLen]; omega

theorem writeExplicit_size {v : ExplicitSubwordVocab} (h : v.indexer.Built) :
    (writeExplicit v).size = explicitLen v := by
  rw [W.size, writeExplicit_bytes h]
  have hk : v.indexer.index.entries.map (·.1) = v.indexer.ngrams := h.keys
  simp only [List.length_append, leBytes_length, items_length, explicitLen, ngramBytes_length, hk]
  omega

theorem readNgram_readsAt {off : Nat} {p : Str × Nat} (h : strLen p.1 < 2 ^ 32) (hi : p.2 < 2 ^ 64) :
    ReadsAt readNgram off (ngramBytes p) p := by
  unfold readNgram ngramBytes
  refine ReadsAt.bind (ReadsAt.readU32 h) ?_
  refine ReadsAt.bind0 (ReadsAt.alloc (by unfold isizeMax; omega)) ?_
  refine ReadsAt.bind (ReadsAt.readExact _ (utf8 p.1)) ?_
  rw [utf8Decode_utf8]
  refine ReadsAt.bind0 (ReadsAt.lift_ok _ _) ?_
  exact ReadsAt.map (fun i => (p.1, i)) (ReadsAt.readU64 hi)

theorem readNgrams_readsAt {off : Nat} {l : List (Str × Nat)} (h : ∀ p ∈ l, strLen p.1 < 2 ^ 32)
    (hi : ∀ p ∈ l, p.2 < 2 ^ 64) (hl : 32 * l.length ≤ isizeMax) :
    ReadsAt (readNgrams l.length) off (l.flatMap ngramBytes) l := by
  unfold readNgrams
  refine ReadsAt.bind0 (ReadsAt.alloc hl) ?_
  exact ReadsAt.replicateM (enc := ngramBytes) l off fun off p hp => readNgram_readsAt (h p hp) (hi p hp)

theorem ExplicitIndexer.Built.lt_bound {ix : ExplicitIndexer} (h : ix.Built) {p : Str × Nat}
    (hp : p ∈ ix.index.entries) : p.2 < ix.bound := by
  have hr := h.reread
  rw [newWithIndices_eq] at hr
  split at hr
  · simp only [Res.ok.injEq, Prod.mk.injEq] at hr
    have h1 : o2nFrom HMap.empty (ix.index.entries.map (·.2)) = idMap ix.bound := hr.2
    have h2 : p.2 ∈ (o2nFrom HMap.empty (ix.index.entries.map (·.2))).keys :=
      (o2nFrom_mem_keys _ _).mpr (.inl (List.mem_map.mpr ⟨p, hp, rfl⟩))
    rw [h1] at h2
    simpa [idMap, HMap.keys] using h2
  · simp at hr

theorem readExplicit_readsAt {ws : List Str} {m M : Nat} {ix : ExplicitIndexer}
    {v : ExplicitSubwordVocab} (hix : ix.Built) (hv : SubwordVocab.new ws m M ix = .ok v)
    (off : Nat) (h : ∀ s ∈ ws, strLen s < 2 ^ 32) (hl : 24 * ws.length ≤ isizeMax)
    (hg : ∀ s ∈ ix.ngrams, strLen s < 2 ^ 32) (hgl : 32 * ix.ngrams.length ≤ isizeMax)
    (hm : m < 2 ^ 32) (hM : M < 2 ^ 32) :
    ReadsAt readExplicit off (writeExplicit v).bytes v := by
  obtain ⟨_, ⟨ub, hub, hle⟩, hv'⟩ := SubwordVocab.newWithBoundaries_eq_ok.mp hv
  have hub' : ix.bound ≤ usizeMax := by
    simp [Indexer.upperBound] at hub; omega
  have e1 : v.words = ws := by rw [hv']
  have e2 : v.minN = m := by rw [hv']
  have e3 : v.maxN = M := by rw [hv']
  have e4 : v.indexer = ix := by rw [hv']
  rw [writeExplicit_bytes (e4 ▸ hix), e1, e2, e3, e4]
  have hk : ix.index.entries.map (·.1) = ix.ngrams := hix.keys
  have hlen : ix.ngrams.length = ix.index.entries.length := by rw [← hk]; simp
  unfold readExplicit
  refine ReadsAt.bind (ensureChunkType_readsAt (by simp)) ?_
  refine ReadsAt.bind (readU64_any_readsAt _ _) ?_
  refine ReadsAt.bind (ReadsAt.readU64 (by unfold isizeMax at hl; omega)) ?_
  refine ReadsAt.bind (ReadsAt.readU64 (by unfold isizeMax at hgl; omega)) ?_
  refine ReadsAt.bind (ReadsAt.readU32 hm) ?_
  refine ReadsAt.bind (ReadsAt.readU32 hM) ?_
  refine ReadsAt.bind (readVocabItems_readsAt h hl) ?_
  rw [← List.append_nil (ix.index.entries.flatMap _), hlen]
  refine ReadsAt.bind (readNgrams_readsAt (fun p hp => hg _ (by
      rw [← hk]; exact List.mem_map.mpr ⟨p, hp, rfl⟩))
    (fun p hp => by have := hix.lt_bound hp; unfold usizeMax at hub'; omega) (by rw [← hlen]; exact hgl)) ?_
  rw [hix.reread]
  refine ReadsAt.bind0 (ReadsAt.lift_ok _ _) ?_
  rw [hv]
  exact ReadsAt.lift_ok _ _

theorem readNgram_mono : Mono readNgram := by unfold readNgram; mono_tac
theorem readNgrams_mono (n) : Mono (readNgrams n) := by
  unfold readNgrams; have := readNgram_mono; mono_tac
theorem readExplicit_mono : Mono readExplicit := by
  unfold readExplicit
  mono_tac
  all_goals first | apply ensureChunkType_mono | apply readVocabItems_mono | apply readNgrams_mono

end FF
