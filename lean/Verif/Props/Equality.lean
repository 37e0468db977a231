import Verif.Model.Equality
import Verif.Props.Rewrite
import Verif.Props.Subword
import Mathlib.Data.List.Perm.Subperm
import Mathlib.Data.List.Nodup

/-!
# C105: vocabularies are equal if and only if they were made from the same things

`==` of vocabularies compares the hash maps, which are made from the lists of words and n-grams, the masks of hash
indexers instead of their exponents, and so on. For vocabularies from the constructors or from a file that comes to the
same as comparing what was given to the constructor; `==` is an equivalence relation, equal vocabularies answer all
queries alike, and two vocabularies that were read are equal if and only if they are written as the same bytes.
-/

namespace FF

open Rd

/-! ## Maps -/

theorem HMap.eq_true_iff {K V : Type} [DecidableEq K] [DecidableEq V] {a b : HMap K V} :
    a.eq b = true ↔ a.len = b.len ∧ ∀ e ∈ a.entries, b.get e.1 = some e.2 := by
  unfold HMap.eq
  rw [Bool.and_eq_true, beq_iff_eq, List.all_eq_true]
  refine and_congr_right fun _ => forall₂_congr fun e _ => ?_
  cases b.get e.1 with
  | none => simp
  | some v => simp [eq_comm]

/-- **C105** (maps). Maps are equal if and only if all lookups give the same, whatever the order of the entries. -/
theorem c105_map {K V : Type} [DecidableEq K] [DecidableEq V] (a b : HMap K V) (ha : a.keys.Nodup) (hb : b.keys.Nodup) :
    a.eq b = true ↔ ∀ k, a.get k = b.get k := by
  rw [HMap.eq_true_iff]
  have hal : a.len = a.keys.length := by simp [HMap.len, HMap.keys]
  have hbl : b.len = b.keys.length := by simp [HMap.len, HMap.keys]
  have mem : ∀ (m : HMap K V) k, k ∈ m.keys ↔ m.get k ≠ none := fun m k => by
    rw [ne_eq, HMap.get_eq_none_iff, not_not]
  constructor
  · rintro ⟨hl, h⟩ k
    have hsub : a.keys ⊆ b.keys := by
      intro k hk
      obtain ⟨e, he, rfl⟩ := List.mem_map.mp hk
      rw [mem, h e he]; simp
    have hp : a.keys.Perm b.keys := (List.subperm_of_subset ha hsub).perm_of_length_le (by omega)
    cases hk : a.get k with
    | some v => exact (h _ (HMap.mem_entries_of_get hk)).symm
    | none =>
      rw [eq_comm, HMap.get_eq_none_iff, ← hp.mem_iff]
      exact HMap.get_eq_none_iff.mp hk
  · intro h
    have hp : a.keys.Perm b.keys := (List.perm_ext_iff_of_nodup ha hb).mpr fun k => by rw [mem, mem, h]
    refine ⟨by rw [hal, hbl]; exact hp.length_eq, fun e he => ?_⟩
    rw [← h]
    exact HMap.get_of_mem_entries ha he

example : (⟨[(1, 'a'), (2, 'b')]⟩ : HMap Nat Char).eq ⟨[(2, 'b'), (1, 'a')]⟩ = true ∧
    (⟨[(1, 'a'), (2, 'b')]⟩ : HMap Nat Char).eq ⟨[(1, 'a'), (2, 'c')]⟩ = false := by decide

theorem HMap.eq_refl {K V : Type} [DecidableEq K] [DecidableEq V] {a : HMap K V} (ha : a.keys.Nodup) :
    a.eq a = true := (c105_map a a ha ha).mpr fun _ => rfl

/-- Equal maps with the same keys in the same order. -/
theorem HMap.eq_struct {K V : Type} [DecidableEq K] [DecidableEq V] {a b : HMap K V} (ha : a.keys.Nodup)
    (hk : a.keys = b.keys) : a.eq b = true ↔ a = b := by
  constructor
  · intro h
    have h := (c105_map a b ha (hk ▸ ha)).mp h
    obtain ⟨ea⟩ := a
    obtain ⟨eb⟩ := b
    congr 1
    apply List.ext_getElem
    · simpa [HMap.keys] using congrArg List.length hk
    · intro i h1 h2
      have e1 : (ea[i]).1 = (eb[i]).1 := by
        have := List.getElem_of_eq hk (i := i) (by simpa [HMap.keys])
        simpa [HMap.keys] using this
      have g1 := HMap.get_of_mem_entries (m := ⟨ea⟩) (k := (ea[i]).1) (v := (ea[i]).2) ha (List.getElem_mem h1)
      have g2 := HMap.get_of_mem_entries (m := ⟨eb⟩) (k := (eb[i]).1) (v := (eb[i]).2) (hk ▸ ha) (List.getElem_mem h2)
      rw [h, e1, g2] at g1
      exact Prod.ext e1 (Option.some.inj g1).symm
  · rintro rfl
    exact HMap.eq_refl ha

/-! ## Vocabularies -/

/-- **C105** (vocabularies without subwords). -/
theorem c105_simple (ws ws' : List Str) (v w : SimpleVocab) (hv : SimpleVocab.new ws = .ok v)
    (hw : SimpleVocab.new ws' = .ok w) : v.eq w = true ↔ ws = ws' := by
  obtain ⟨hn, rfl⟩ := SimpleVocab.new_eq_ok.mp hv
  obtain ⟨hn', rfl⟩ := SimpleVocab.new_eq_ok.mp hw
  simp only [SimpleVocab.eq, Bool.and_eq_true, decide_eq_true_eq]
  constructor
  · exact fun h => h.2
  · rintro rfl
    exact ⟨HMap.eq_refl (indexMap_nodup ws), rfl⟩

example : ∃ v w, SimpleVocab.new [['a'], ['b']] = .ok v ∧ SimpleVocab.new [['b'], ['a']] = .ok w ∧
    v.eq v = true ∧ v.eq w = false :=
  ⟨_, _, rfl, rfl, by decide, by decide⟩

/-- Vocabularies with subwords: everything that was given to the constructor has to be equal. -/
theorem subword_eq {I : Type} [Indexer I] [IndexerEq I] {ws ws' : List Str} {m m' M M' : Nat} {ix ix' : I}
    {bow bow' eow eow' : Str} {v w : SubwordVocab I}
    (hv : SubwordVocab.newWithBoundaries ws m M ix bow eow = .ok v)
    (hw : SubwordVocab.newWithBoundaries ws' m' M' ix' bow' eow' = .ok w) :
    v.eq w = true ↔ (ws = ws' ∧ m = m' ∧ M = M' ∧ bow = bow' ∧ eow = eow') ∧ IndexerEq.eq ix ix' = true := by
  obtain ⟨hn, _, rfl⟩ := SubwordVocab.newWithBoundaries_eq_ok.mp hv
  obtain ⟨hn', _, rfl⟩ := SubwordVocab.newWithBoundaries_eq_ok.mp hw
  simp only [SubwordVocab.eq, Bool.and_eq_true, decide_eq_true_eq, beq_iff_eq]
  constructor
  · rintro ⟨⟨⟨⟨⟨⟨h1, h2⟩, h3⟩, h4⟩, h5⟩, h6⟩, h7⟩
    exact ⟨⟨h5, h6, h7, h1, h2⟩, h3⟩
  · rintro ⟨⟨rfl, rfl, rfl, rfl, rfl⟩, h⟩
    exact ⟨⟨⟨⟨⟨⟨rfl, rfl⟩, h⟩, HMap.eq_refl (indexMap_nodup ws)⟩, rfl⟩, rfl⟩, rfl⟩

theorem hash_eq {e e' : Nat} {ix ix' : HashIndexer} (h : HashIndexer.new e = .ok ix) (h' : HashIndexer.new e' = .ok ix') :
    IndexerEq.eq ix ix' = true ↔ e = e' := by
  show ix.eq ix' = true ↔ _
  rw [c28_eq e e' ix ix' h h']
  exact ⟨fun h => (Nat.pow_right_inj (by decide)).mp h, fun h => by rw [h]⟩

/-- **C105** (vocabularies with hash buckets). -/
theorem c105_bucket (ws ws' : List Str) (m m' M M' e e' : Nat) (ix ix' : HashIndexer) (bow bow' eow eow' : Str)
    (v w : BucketSubwordVocab) (hix : HashIndexer.new e = .ok ix) (hix' : HashIndexer.new e' = .ok ix')
    (hv : SubwordVocab.newWithBoundaries ws m M ix bow eow = .ok v)
    (hw : SubwordVocab.newWithBoundaries ws' m' M' ix' bow' eow' = .ok w) :
    v.eq w = true ↔ (ws = ws' ∧ m = m' ∧ M = M' ∧ bow = bow' ∧ eow = eow') ∧ e = e' := by
  rw [subword_eq hv hw, hash_eq hix hix']

theorem fasttext_eq {b b' : Nat} {ix ix' : FastTextIndexer} (h : FastTextIndexer.new b = .ok ix)
    (h' : FastTextIndexer.new b' = .ok ix') : IndexerEq.eq ix ix' = true ↔ b = b' := by
  obtain ⟨h1, rfl⟩ := FastTextIndexer.new_eq_ok.mp h
  obtain ⟨h2, rfl⟩ := FastTextIndexer.new_eq_ok.mp h'
  show ((UInt32.ofNat b == UInt32.ofNat b') = true) ↔ _
  rw [beq_iff_eq, ← UInt32.toNat_inj, UInt32.toNat_ofNat', UInt32.toNat_ofNat', Nat.mod_eq_of_lt (by omega),
    Nat.mod_eq_of_lt (by omega)]

/-- **C105** (vocabularies with fastText buckets). -/
theorem c105_fasttext (ws ws' : List Str) (m m' M M' b b' : Nat) (ix ix' : FastTextIndexer) (bow bow' eow eow' : Str)
    (v w : FastTextSubwordVocab) (hix : FastTextIndexer.new b = .ok ix) (hix' : FastTextIndexer.new b' = .ok ix')
    (hv : SubwordVocab.newWithBoundaries ws m M ix bow eow = .ok v)
    (hw : SubwordVocab.newWithBoundaries ws' m' M' ix' bow' eow' = .ok w) :
    v.eq w = true ↔ (ws = ws' ∧ m = m' ∧ M = M' ∧ bow = bow' ∧ eow = eow') ∧ b = b' := by
  rw [subword_eq hv hw, fasttext_eq hix hix']

theorem floret_eq {nb nb' nh nh' : Nat} {seed seed' : UInt32} {ix ix' : FloretIndexer}
    (h : FloretIndexer.new nb nh seed = .ok ix) (h' : FloretIndexer.new nb' nh' seed' = .ok ix') :
    IndexerEq.eq ix ix' = true ↔ nb = nb' ∧ nh = nh' ∧ seed = seed' := by
  obtain ⟨_, _, rfl⟩ := FloretIndexer.new_eq_ok.mp h
  obtain ⟨_, _, rfl⟩ := FloretIndexer.new_eq_ok.mp h'
  show ((nb == nb' && seed == seed' && nh == nh') = true) ↔ _
  simp only [Bool.and_eq_true, beq_iff_eq]
  exact ⟨fun ⟨⟨a, b⟩, c⟩ => ⟨a, c, b⟩, fun ⟨a, c, b⟩ => ⟨⟨a, b⟩, c⟩⟩

/-- **C105** (floret vocabularies). -/
theorem c105_floret (ws ws' : List Str) (m m' M M' nb nb' nh nh' : Nat) (seed seed' : UInt32) (ix ix' : FloretIndexer)
    (bow bow' eow eow' : Str) (v w : FloretSubwordVocab) (hix : FloretIndexer.new nb nh seed = .ok ix)
    (hix' : FloretIndexer.new nb' nh' seed' = .ok ix')
    (hv : SubwordVocab.newWithBoundaries ws m M ix bow eow = .ok v)
    (hw : SubwordVocab.newWithBoundaries ws' m' M' ix' bow' eow' = .ok w) :
    v.eq w = true ↔
      (ws = ws' ∧ m = m' ∧ M = M' ∧ bow = bow' ∧ eow = eow') ∧ nb = nb' ∧ nh = nh' ∧ seed = seed' := by
  rw [subword_eq hv hw, floret_eq hix hix']

example : ∃ ix ix' v w w', HashIndexer.new 3 = .ok ix ∧ HashIndexer.new 4 = .ok ix' ∧
    SubwordVocab.newWithBoundaries [['a'], ['b']] 3 6 ix ['<'] ['>'] = .ok v ∧
    SubwordVocab.newWithBoundaries [['a'], ['b']] 3 6 ix' ['<'] ['>'] = .ok w ∧
    SubwordVocab.newWithBoundaries [['a'], ['b']] 3 6 ix ['<'] ['!'] = .ok w' ∧
    v.eq v = true ∧ v.eq w = false ∧ v.eq w' = false :=
  ⟨_, _, _, _, _, rfl, rfl, rfl, rfl, rfl, by decide, by decide, by decide⟩

example : ∃ ix ix' v w, FloretIndexer.new 8 2 7 = .ok ix ∧ FloretIndexer.new 8 2 9 = .ok ix' ∧
    SubwordVocab.newWithBoundaries [] 3 6 ix ['<'] ['>'] = .ok v ∧
    SubwordVocab.newWithBoundaries [] 3 6 ix' ['<'] ['>'] = .ok w ∧ v.eq v = true ∧ v.eq w = false :=
  ⟨_, _, _, _, rfl, rfl, rfl, rfl, by decide, by decide⟩

example : ∃ ix ix' v w, FastTextIndexer.new 8 = .ok ix ∧ FastTextIndexer.new 9 = .ok ix' ∧
    SubwordVocab.newWithBoundaries [['a']] 3 6 ix ['<'] ['>'] = .ok v ∧
    SubwordVocab.newWithBoundaries [['a']] 3 6 ix' ['<'] ['>'] = .ok w ∧ v.eq v = true ∧ v.eq w = false :=
  ⟨_, _, _, _, rfl, rfl, rfl, rfl, by decide, by decide⟩

/-! ## Explicit n-grams -/

/-- The same places of two lists hold the same as each other. -/
def SameGroups (l l' : List Nat) : Prop :=
  ∀ i j : Nat, i < l.length → j < l.length → (l[i]? = l[j]? ↔ l'[i]? = l'[j]?)

/-- Numbering in the order of first appearance only depends on which places hold the same. -/
theorem o2nFrom_groups (z : List (Nat × Nat)) (m m' : HMap Nat Nat) (hl : m.len = m'.len)
    (hg : ∀ p ∈ z, m.get p.1 = m'.get p.2) (hz : ∀ p ∈ z, ∀ q ∈ z, p.1 = q.1 ↔ p.2 = q.2) :
    (o2nFrom m (z.map (·.1))).len = (o2nFrom m' (z.map (·.2))).len ∧
    ∀ p ∈ z, (o2nFrom m (z.map (·.1))).get p.1 = (o2nFrom m' (z.map (·.2))).get p.2 := by
  induction z generalizing m m' with
  | nil => exact ⟨hl, fun p hp => absurd hp (by simp)⟩
  | cons p z ih =>
    have h0 := hg p (by simp)
    have key : (o2nStep m p.1).len = (o2nStep m' p.2).len ∧
        (∀ q ∈ p :: z, (o2nStep m p.1).get q.1 = (o2nStep m' p.2).get q.2) ∧
        ∃ x, (o2nStep m p.1).get p.1 = some x := by
      unfold o2nStep
      rw [← h0]
      cases hm : m.get p.1 with
      | some x => exact ⟨hl, hg, x, hm⟩
      | none =>
        have hm' := h0 ▸ hm
        refine ⟨?_, fun q hq => ?_, m.len, by simp [HMap.get_insert]⟩
        · simp only [HMap.insert_fresh hm, HMap.insert_fresh hm']
          simpa [HMap.len] using hl
        · have := hz p (by simp) q hq
          simp only [HMap.get_insert, hl, hg q hq]
          by_cases e : p.1 = q.1
          · rw [if_pos e, if_pos (this.mp e)]
          · rw [if_neg e, if_neg (fun h => e (this.mpr h))]
    obtain ⟨k1, k2, x, k3⟩ := key
    have := ih _ _ k1 (fun q hq => k2 q (by simp [hq])) (fun a ha b hb => hz a (by simp [ha]) b (by simp [hb]))
    refine ⟨this.1, fun q hq => ?_⟩
    rcases List.mem_cons.mp hq with rfl | hq
    · have k4 := k2 q (by simp)
      rw [k3] at k4
      show (o2nFrom (o2nStep m q.1) _).get q.1 = (o2nFrom (o2nStep m' q.2) _).get q.2
      rw [o2nFrom_get k3, o2nFrom_get k4.symm]
    · exact this.2 q hq

theorem explicit_eq {t t' : List (Str × Nat)} {ix ix' : ExplicitIndexer} {o o' : HMap Nat Nat}
    (h : ExplicitIndexer.newWithIndices t = .ok (ix, o)) (h' : ExplicitIndexer.newWithIndices t' = .ok (ix', o')) :
    IndexerEq.eq ix ix' = true ↔ ix = ix' := by
  rw [newWithIndices_eq] at h h'
  split at h
  · rename_i hn
    split at h'
    · rename_i hn'
      obtain ⟨rfl, -⟩ := Prod.mk.inj (Res.ok.inj h)
      obtain ⟨rfl, -⟩ := Prod.mk.inj (Res.ok.inj h')
      show ExplicitIndexer.eq _ _ = true ↔ _
      simp only [ExplicitIndexer.eq, Bool.and_eq_true, decide_eq_true_eq, beq_iff_eq, ExplicitIndexer.mk.injEq]
      constructor
      · rintro ⟨⟨h1, h2⟩, h3⟩
        exact ⟨h1, (HMap.eq_struct (by simpa [HMap.keys, Function.comp_def] using hn) (by simpa [HMap.keys, Function.comp_def] using h1)).mp h2, h3⟩
      · rintro ⟨h1, h2, h3⟩
        exact ⟨⟨h1, (HMap.eq_struct (by simpa [HMap.keys, Function.comp_def] using hn) (by simpa [HMap.keys, Function.comp_def] using h1)).mpr h2⟩, h3⟩
    · cases h'
  · cases h

theorem explicit_groups {t t' : List (Str × Nat)} {ix ix' : ExplicitIndexer} {o o' : HMap Nat Nat}
    (h : ExplicitIndexer.newWithIndices t = .ok (ix, o)) (h' : ExplicitIndexer.newWithIndices t' = .ok (ix', o')) :
    ix = ix' ↔ t.map (·.1) = t'.map (·.1) ∧ SameGroups (t.map (·.2)) (t'.map (·.2)) := by
  rw [newWithIndices_eq] at h h'
  split at h
  · rename_i hn
    split at h'
    · rename_i hn'
      obtain ⟨rfl, -⟩ := Prod.mk.inj (Res.ok.inj h)
      obtain ⟨rfl, -⟩ := Prod.mk.inj (Res.ok.inj h')
      clear h h'
      simp only [ExplicitIndexer.mk.injEq, HMap.mk.injEq]
      have hd : Dense (o2nFrom HMap.empty (t.map (·.2))) := dense_empty.from _
      have hd' : Dense (o2nFrom HMap.empty (t'.map (·.2))) := dense_empty.from _
      have some_of : ∀ (l : List Nat) i, i ∈ l → ∃ x, (o2nFrom HMap.empty l).get i = some x := by
        intro l i hi
        apply Option.ne_none_iff_exists'.mp
        intro hc
        exact HMap.get_eq_none_iff.mp hc ((o2nFrom_mem_keys l i).mpr (.inl hi))
      refine ⟨fun ⟨h1, h2, _⟩ => ⟨h1, ?_⟩, fun ⟨h1, h2⟩ => ⟨h1, ?_⟩⟩
      · have hlen : t.length = t'.length := by simpa using congrArg List.length h1
        have key : ∀ i (hi : i < t.length), (o2nFrom HMap.empty (t.map (·.2))).get (t[i]).2 =
            (o2nFrom HMap.empty (t'.map (·.2))).get (t'[i]'(hlen ▸ hi)).2 := by
          intro i hi
          have e := List.getElem_of_eq h2 (i := i) (by simpa)
          simp only [List.getElem_map, Prod.mk.injEq] at e
          obtain ⟨x, hx⟩ := some_of (t.map (·.2)) (t[i]).2 (List.mem_map.mpr ⟨_, List.getElem_mem hi, rfl⟩)
          obtain ⟨y, hy⟩ := some_of (t'.map (·.2)) (t'[i]'(hlen ▸ hi)).2
            (List.mem_map.mpr ⟨_, List.getElem_mem (hlen ▸ hi), rfl⟩)
          rw [hx, hy] at e ⊢
          simpa using e.2
        intro i j hi hj
        rw [List.length_map] at hi hj
        have hi' : i < t'.length := hlen ▸ hi
        have hj' : j < t'.length := hlen ▸ hj
        rw [List.getElem?_eq_getElem (by simpa), List.getElem?_eq_getElem (by simpa),
          List.getElem?_eq_getElem (by simpa), List.getElem?_eq_getElem (by simpa)]
        simp only [List.getElem_map, Option.some.injEq]
        obtain ⟨x, hx⟩ := some_of (t.map (·.2)) (t[i]).2 (List.mem_map.mpr ⟨_, List.getElem_mem hi, rfl⟩)
        obtain ⟨x', hx'⟩ := some_of (t'.map (·.2)) (t'[i]).2 (List.mem_map.mpr ⟨_, List.getElem_mem hi', rfl⟩)
        constructor
        · intro e
          have := key j hj
          rw [← e, key i hi, hx'] at this
          exact hd'.inj hx' this.symm
        · intro e
          have := key j hj
          rw [← e, ← key i hi, hx] at this
          exact hd.inj hx this
      · have hlen : t.length = t'.length := by simpa using congrArg List.length h1
        have z1 : ((t.map (·.2)).zip (t'.map (·.2))).map (·.1) = t.map (·.2) :=
          List.map_fst_zip (by simp [hlen])
        have z2 : ((t.map (·.2)).zip (t'.map (·.2))).map (·.2) = t'.map (·.2) :=
          List.map_snd_zip (by simp [hlen])
        have g := o2nFrom_groups ((t.map (·.2)).zip (t'.map (·.2))) HMap.empty HMap.empty rfl (fun _ _ => rfl) (by
          intro p hp q hq
          obtain ⟨i, hi, rfl⟩ := List.getElem_of_mem hp
          obtain ⟨j, hj, rfl⟩ := List.getElem_of_mem hq
          have hi1 : i < t.length := by simp at hi; omega
          have hj1 : j < t.length := by simp at hj; omega
          have := h2 i j (by simpa) (by simpa)
          rw [List.getElem?_eq_getElem (by simpa), List.getElem?_eq_getElem (by simpa),
            List.getElem?_eq_getElem (by simp; omega), List.getElem?_eq_getElem (by simp; omega)] at this
          simpa using this)
        rw [z1, z2] at g
        refine ⟨List.ext_getElem (by simpa) fun i hi hi' => ?_, g.1⟩
        simp only [List.length_map] at hi hi'
        have e1 := List.getElem_of_eq h1 (i := i) (by simpa)
        simp only [List.getElem_map] at e1 ⊢
        have e2 := g.2 ((t[i]).2, (t'[i]).2) (List.mem_iff_getElem.mpr ⟨i, by simp; omega, by simp⟩)
        rw [e1, e2]
    · cases h'
  · cases h

/-- **C105** (vocabularies with explicit n-grams). The numbers given for the n-grams do not matter, only which n-grams
have the same number. -/
theorem c105_explicit (ws ws' : List Str) (m m' M M' : Nat) (t t' : List (Str × Nat)) (ix ix' : ExplicitIndexer)
    (o o' : HMap Nat Nat) (bow bow' eow eow' : Str) (v w : ExplicitSubwordVocab)
    (hix : ExplicitIndexer.newWithIndices t = .ok (ix, o)) (hix' : ExplicitIndexer.newWithIndices t' = .ok (ix', o'))
    (hv : SubwordVocab.newWithBoundaries ws m M ix bow eow = .ok v)
    (hw : SubwordVocab.newWithBoundaries ws' m' M' ix' bow' eow' = .ok w) :
    v.eq w = true ↔ (ws = ws' ∧ m = m' ∧ M = M' ∧ bow = bow' ∧ eow = eow') ∧
      t.map (·.1) = t'.map (·.1) ∧ SameGroups (t.map (·.2)) (t'.map (·.2)) := by
  rw [subword_eq hv hw, explicit_eq hix hix', explicit_groups hix hix']

/-- **C105** (vocabularies with explicit n-grams that all have an index of their own). -/
theorem c105_explicit_new (ws ws' : List Str) (m m' M M' : Nat) (ng ng' : List Str) (ix ix' : ExplicitIndexer)
    (bow bow' eow eow' : Str) (v w : ExplicitSubwordVocab)
    (hix : ExplicitIndexer.new ng = .ok ix) (hix' : ExplicitIndexer.new ng' = .ok ix')
    (hv : SubwordVocab.newWithBoundaries ws m M ix bow eow = .ok v)
    (hw : SubwordVocab.newWithBoundaries ws' m' M' ix' bow' eow' = .ok w) :
    v.eq w = true ↔ (ws = ws' ∧ m = m' ∧ M = M' ∧ bow = bow' ∧ eow = eow') ∧ ng = ng' := by
  rw [subword_eq hv hw, explicit_eq (ExplicitIndexer.new_eq_newWithIndices hix) (ExplicitIndexer.new_eq_newWithIndices hix')]
  refine and_congr_right fun _ => ?_
  obtain ⟨_, rfl⟩ := ExplicitIndexer.new_eq_ok.mp hix
  obtain ⟨_, rfl⟩ := ExplicitIndexer.new_eq_ok.mp hix'
  constructor
  · intro h
    exact congrArg ExplicitIndexer.ngrams h
  · rintro rfl; rfl

example : ∃ ix ix' v w, ExplicitIndexer.new [['a'], ['b']] = .ok ix ∧ ExplicitIndexer.new [['b'], ['a']] = .ok ix' ∧
    SubwordVocab.newWithBoundaries [['x']] 1 2 ix ['<'] ['>'] = .ok v ∧
    SubwordVocab.newWithBoundaries [['x']] 1 2 ix' ['<'] ['>'] = .ok w ∧ v.eq v = true ∧ v.eq w = false :=
  ⟨_, _, _, _, rfl, rfl, rfl, rfl, by decide, by decide⟩

example : ∃ ix o ix' o' ix'' o'' v w u,
    ExplicitIndexer.newWithIndices [(['a'], 7), (['b'], 3), (['c'], 7)] = .ok (ix, o) ∧
    ExplicitIndexer.newWithIndices [(['a'], 0), (['b'], 9), (['c'], 0)] = .ok (ix', o') ∧
    ExplicitIndexer.newWithIndices [(['a'], 7), (['b'], 3), (['c'], 3)] = .ok (ix'', o'') ∧
    SubwordVocab.newWithBoundaries [['x']] 1 2 ix ['<'] ['>'] = .ok v ∧
    SubwordVocab.newWithBoundaries [['x']] 1 2 ix' ['<'] ['>'] = .ok w ∧
    SubwordVocab.newWithBoundaries [['x']] 1 2 ix'' ['<'] ['>'] = .ok u ∧ v.eq w = true ∧ v.eq u = false :=
  ⟨_, _, _, _, _, _, _, _, _, rfl, rfl, rfl, rfl, rfl, rfl, by decide, by decide⟩

/-! ## All vocabularies -/

/-- Vocabularies made by the constructors. -/
def MadeVocab : VocabWrap → Prop
  | .simple v => ∃ ws, SimpleVocab.new ws = .ok v
  | .bucket v => ∃ e ix ws m M bow eow, HashIndexer.new e = .ok ix ∧
      SubwordVocab.newWithBoundaries ws m M ix bow eow = .ok v
  | .fastText v => ∃ b ix ws m M bow eow, FastTextIndexer.new b = .ok ix ∧
      SubwordVocab.newWithBoundaries ws m M ix bow eow = .ok v
  | .explicit v => ∃ ix ws m M bow eow, ((∃ ng, ExplicitIndexer.new ng = .ok ix) ∨
        ∃ t o2n, ExplicitIndexer.newWithIndices t = .ok (ix, o2n)) ∧
      SubwordVocab.newWithBoundaries ws m M ix bow eow = .ok v
  | .floret v => ∃ nb nh seed ix ws m M bow eow, FloretIndexer.new nb nh seed = .ok ix ∧
      SubwordVocab.newWithBoundaries ws m M ix bow eow = .ok v

/-- **C105** (reading). What is read from a file could have been made by the constructors. -/
theorem c105_read_made (d : Bytes) (pos q : Nat) (v : VocabWrap) (h : readVocabWrap d pos = .ok (v, q)) :
    MadeVocab v := by
  obtain ⟨pat, hL, _⟩ := (c67_vocab d pos v q).mp h
  have hs := storableVocab_of_pat hL
  cases v with
  | simple v => obtain ⟨ws, h, _⟩ := hs; exact ⟨ws, h⟩
  | bucket v =>
    obtain ⟨e, ix, ws, m, M, h1, h2, _⟩ := hs
    exact ⟨e, ix, ws, m, M, _, _, h1, h2⟩
  | fastText v =>
    obtain ⟨e, ix, ws, m, M, h1, h2, _⟩ := hs
    exact ⟨e, ix, ws, m, M, _, _, h1, h2⟩
  | explicit v =>
    obtain ⟨ix, ws, m, M, h1, h2, _⟩ := hs
    exact ⟨ix, ws, m, M, _, _, h1, h2⟩
  | floret v =>
    obtain ⟨nb, nh, seed, ix, m, M, bow, eow, h1, h2, _⟩ := hs
    exact ⟨nb, nh, seed, ix, [], m, M, bow, eow, h1, h2⟩

theorem subword_made_eq {I : Type} [Indexer I] [IndexerEq I] {ws ws' : List Str} {m m' M M' : Nat} {ix ix' : I}
    {bow bow' eow eow' : Str} {v w : SubwordVocab I}
    (hv : SubwordVocab.newWithBoundaries ws m M ix bow eow = .ok v)
    (hw : SubwordVocab.newWithBoundaries ws' m' M' ix' bow' eow' = .ok w)
    (hi : IndexerEq.eq ix ix' = true ↔ ix = ix') : v.eq w = true ↔ v = w := by
  rw [subword_eq hv hw, hi]
  obtain ⟨hn, _, rfl⟩ := SubwordVocab.newWithBoundaries_eq_ok.mp hv
  obtain ⟨hn', _, rfl⟩ := SubwordVocab.newWithBoundaries_eq_ok.mp hw
  rw [SubwordVocab.mk.injEq]
  constructor
  · rintro ⟨⟨rfl, rfl, rfl, rfl, rfl⟩, rfl⟩
    exact ⟨rfl, rfl, rfl, rfl, rfl, rfl, rfl⟩
  · rintro ⟨rfl, rfl, rfl, _, rfl, rfl, rfl⟩
    exact ⟨⟨rfl, rfl, rfl, rfl, rfl⟩, rfl⟩

/-- **C105** (all vocabularies). Equality is equality of all that the model keeps of a vocabulary; in particular different
kinds of vocabularies are never equal. -/
theorem c105_made (v w : VocabWrap) (hv : MadeVocab v) (hw : MadeVocab w) : v.eq w = true ↔ v = w := by
  cases v <;> cases w <;> first
    | exact ⟨fun h => (Bool.false_ne_true h).elim, fun h => by cases h⟩
    | skip
  · rename_i v w
    obtain ⟨ws, h⟩ := hv
    obtain ⟨ws', h'⟩ := hw
    show v.eq w = true ↔ _
    rw [c105_simple ws ws' v w h h', VocabWrap.simple.injEq]
    obtain ⟨_, rfl⟩ := SimpleVocab.new_eq_ok.mp h
    obtain ⟨_, rfl⟩ := SimpleVocab.new_eq_ok.mp h'
    exact ⟨fun h => by rw [h], fun h => congrArg SimpleVocab.words h⟩
  · rename_i v w
    obtain ⟨ix, ws, m, M, bow, eow, h1, h2⟩ := hv
    obtain ⟨ix', ws', m', M', bow', eow', h1', h2'⟩ := hw
    have e : ∀ {ix : ExplicitIndexer}, ((∃ ng, ExplicitIndexer.new ng = .ok ix) ∨
        ∃ t o2n, ExplicitIndexer.newWithIndices t = .ok (ix, o2n)) →
        ∃ t o2n, ExplicitIndexer.newWithIndices t = .ok (ix, o2n) := by
      rintro ix (⟨ng, h⟩ | h)
      · exact ⟨_, _, ExplicitIndexer.new_eq_newWithIndices h⟩
      · exact h
    obtain ⟨t, o, ht⟩ := e h1
    obtain ⟨t', o', ht'⟩ := e h1'
    rw [VocabWrap.explicit.injEq]
    exact subword_made_eq h2 h2' (explicit_eq ht ht')
  · rename_i v w
    obtain ⟨b, ix, ws, m, M, bow, eow, h1, h2⟩ := hv
    obtain ⟨b', ix', ws', m', M', bow', eow', h1', h2'⟩ := hw
    rw [VocabWrap.fastText.injEq]
    refine subword_made_eq h2 h2' ?_
    obtain ⟨x⟩ := ix
    obtain ⟨y⟩ := ix'
    show (x == y) = true ↔ _
    rw [beq_iff_eq, FastTextIndexer.mk.injEq]
  · rename_i v w
    obtain ⟨nb, nh, seed, ix, ws, m, M, bow, eow, h1, h2⟩ := hv
    obtain ⟨nb', nh', seed', ix', ws', m', M', bow', eow', h1', h2'⟩ := hw
    rw [VocabWrap.floret.injEq]
    refine subword_made_eq h2 h2' ?_
    obtain ⟨a, b, c⟩ := ix
    obtain ⟨a', b', c'⟩ := ix'
    show (a == a' && b == b' && c == c') = true ↔ _
    simp [and_assoc]
  · rename_i v w
    obtain ⟨e, ix, ws, m, M, bow, eow, h1, h2⟩ := hv
    obtain ⟨e', ix', ws', m', M', bow', eow', h1', h2'⟩ := hw
    rw [VocabWrap.bucket.injEq]
    refine subword_made_eq h2 h2' ?_
    rw [hash_eq h1 h1']
    constructor
    · rintro rfl
      rw [h1] at h1'
      exact Res.ok.inj h1'
    · rintro rfl
      exact (hash_eq h1 h1').mp (by show (ix.mask == ix.mask) = true; simp)

/-- **C105** (equivalence relation). -/
theorem c105_equivalence (u v w : VocabWrap) (hu : MadeVocab u) (hv : MadeVocab v) (hw : MadeVocab w) :
    u.eq u = true ∧ u.eq v = v.eq u ∧ (u.eq v = true → v.eq w = true → u.eq w = true) := by
  refine ⟨(c105_made u u hu hu).mpr rfl, ?_, ?_⟩
  · rw [Bool.eq_iff_iff, c105_made u v hu hv, c105_made v u hv hu, eq_comm]
  · rw [c105_made u v hu hv, c105_made v w hv hw, c105_made u w hu hw]
    exact Eq.trans

/-- **C105** (queries). Equal vocabularies are indistinguishable: same words, same lengths, same answer for every word,
same bytes when written. -/
theorem c105_same_answers (v w : VocabWrap) (hv : MadeVocab v) (hw : MadeVocab w) (h : v.eq w = true) :
    Vocab.words v = Vocab.words w ∧ Vocab.wordsLen v = Vocab.wordsLen w ∧ Vocab.vocabLen v = Vocab.vocabLen w ∧
    (∀ s : Str, Vocab.idx v s = Vocab.idx w s) ∧
    ∀ off, (writeChunk v off) = writeChunk w off := by
  rw [(c105_made v w hv hw).mp h]
  exact ⟨rfl, rfl, rfl, fun _ => rfl, fun _ => rfl⟩

/-- **C105** (bytes). Two vocabularies that were read, from whatever files, are equal if and only if they are written as
the same bytes. -/
theorem c105_bytes (d d' : Bytes) (p p' q q' : Nat) (v w : VocabWrap) (hv : readVocabWrap d p = .ok (v, q))
    (hw : readVocabWrap d' p' = .ok (w, q')) :
    v.eq w = true ↔ (writeChunk v 0).bytes = (writeChunk w 0).bytes := by
  have hm := c105_read_made d p q v hv
  have hm' := c105_read_made d' p' q' w hw
  rw [c105_made v w hm hm']
  constructor
  · rintro rfl; rfl
  · intro h
    have r1 := ((c87_vocab.2.2.2.2.2 d p v q hv) [] []).2
    have r2 := ((c87_vocab.2.2.2.2.2 d' p' w q' hw) [] []).2
    have h' : (writeChunk v ([] : Bytes).length).bytes = (writeChunk w ([] : Bytes).length).bytes := h
    rw [h', r2] at r1
    exact (Prod.mk.inj (Res.ok.inj r1)).1.symm

/-- Three made vocabularies of different kinds, and a file with one. -/
example : ∃ a b c d q, MadeVocab (.simple a) ∧ MadeVocab (.explicit b) ∧ MadeVocab (.bucket c) ∧
    (VocabWrap.simple a).eq (.bucket c) = false ∧ (VocabWrap.explicit b).eq (.explicit b) = true ∧
    readVocabWrap d 0 = .ok (.simple a, q) := by
  have r := fun (a : SimpleVocab) (h : StorableVocab (.simple a)) => (h.roundTrips [] []).2
  exact ⟨_, _, _, _, _, ⟨[['a'], ['b']], rfl⟩, ⟨_, [['a']], 3, 6, ['<'], ['>'], .inl ⟨[['x'], ['y']], rfl⟩, rfl⟩,
    ⟨4, _, [['a'], ['b']], 3, 6, ['<'], ['>'], rfl, rfl⟩, rfl, by decide,
    r _ ⟨[['a'], ['b']], rfl, ⟨by decide, by decide⟩⟩⟩

end FF
