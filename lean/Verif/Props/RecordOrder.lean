import Verif.Props.LineOrder
import Verif.Props.Truncated

/-!
# C123: the order of the records of word2vec files
-/

namespace FF

open Rd Embeddings

/-! ## Records are determined by their bytes -/

theorem split_at_space {a b x y : Bytes} (ha : (32 : UInt8) ∉ a) (hb : (32 : UInt8) ∉ b) (h : a ++ 32 :: x = b ++ 32 :: y) :
    a = b ∧ x = y := by
  induction a generalizing b with
  | nil =>
    cases b with
    | nil => exact ⟨rfl, (List.cons.inj h).2⟩
    | cons c b => exact absurd (List.mem_cons_self ..) ((List.cons.inj h).1 ▸ hb)
  | cons c a ih =>
    cases b with
    | nil => exact absurd (List.mem_cons_self ..) ((List.cons.inj h).1 ▸ ha)
    | cons c' b =>
      obtain ⟨rfl, h'⟩ := List.cons.inj h
      obtain ⟨rfl, h''⟩ := ih (fun z => ha (List.mem_cons_of_mem _ z)) (fun z => hb (List.mem_cons_of_mem _ z)) h'
      exact ⟨rfl, h''⟩

theorem encodeF32s_inj {xs ys : List F32} (hl : xs.length = ys.length) (h : encodeF32s xs = encodeF32s ys) : xs = ys := by
  have h1 := decodeF32s_encodeF32s xs []
  have h2 := decodeF32s_encodeF32s ys []
  rw [h, hl] at h1
  exact h1.symm.trans h2

theorem records_unique {k : Nat} : ∀ {rs rs' : List W2vRecord} {x y : Bytes},
    (∀ r ∈ rs, (32 : UInt8) ∉ r.word ∧ r.xs.length = k) → (∀ r ∈ rs', (32 : UInt8) ∉ r.word ∧ r.xs.length = k) →
    rs.length = rs'.length → rs.flatMap W2vRecord.bytes ++ x = rs'.flatMap W2vRecord.bytes ++ y → rs = rs' ∧ x = y
  | [], [], _, _, _, _, _, h => ⟨rfl, h⟩
  | r :: rs, r' :: rs', x, y, h1, h2, hl, h => by
    obtain ⟨w, xs⟩ := r
    obtain ⟨w', xs'⟩ := r'
    have a := h1 _ (List.mem_cons_self ..)
    have b := h2 _ (List.mem_cons_self ..)
    simp only [List.flatMap_cons, W2vRecord.bytes, List.append_assoc, List.cons_append] at h
    obtain ⟨h0, h6⟩ := split_at_space a.1 b.1 h
    obtain rfl : w = w' := h0
    have hlen : xs.length = xs'.length := a.2.trans b.2.symm
    rw [List.nil_append, List.nil_append] at h6
    obtain ⟨h3, h4⟩ := List.append_inj h6 (by rw [encodeF32s_length, encodeF32s_length, hlen])
    obtain rfl := encodeF32s_inj hlen h3
    obtain ⟨rfl, h5⟩ := records_unique (fun r hr => h1 r (List.mem_cons_of_mem _ hr))
      (fun r hr => h2 r (List.mem_cons_of_mem _ hr)) (by simpa using hl) h4
    exact ⟨rfl, h5⟩

section
variable {T F : Type} [Scalar F] [FloatBits F] [ScalarOrd F] [LawfulScalarOrd F]

/-- **C123** (word2vec files). A file that is accepted, with the same records in another order: it is accepted, just as much is
read, and the embeddings have the same words, and the same answers for all words and queries. Both readers. -/
theorem c123_word2vec (lossy : Bool) (pre first rest : Bytes) (hsp : (32 : UInt8) ∈ first) (hnl : (10 : UInt8) ∉ first)
    (rs rs' : List W2vRecord) (hp : rs.Perm rs') (k : Nat) (hk : k ≠ 0)
    (hr : ∀ r ∈ rs, (32 : UInt8) ∉ r.word ∧ r.xs.length = k) (e : Embeddings T SimpleVocab (NdArray F) F) (q : Nat)
    (hw : e.vocab.words.length = rs.length) (hd : e.dims = k) :
    (readWord2vecRaw lossy (pre ++ (first ++ 10 :: (rs.flatMap W2vRecord.bytes ++ rest))) pre.length = .ok (e, q) →
      ∃ e' : Embeddings T SimpleVocab (NdArray F) F,
        readWord2vecRaw lossy (pre ++ (first ++ 10 :: (rs'.flatMap W2vRecord.bytes ++ rest))) pre.length = .ok (e', q) ∧
        SameButOrder e e') ∧
    (readWord2vec lossy (pre ++ (first ++ 10 :: (rs.flatMap W2vRecord.bytes ++ rest))) pre.length = .ok (e, q) →
      ∃ e' : Embeddings T SimpleVocab (NdArray F) F,
        readWord2vec lossy (pre ++ (first ++ 10 :: (rs'.flatMap W2vRecord.bytes ++ rest))) pre.length = .ok (e', q) ∧
        SameButOrder e e') := by
  have key : ∀ e : Embeddings T SimpleVocab (NdArray F) F, e.vocab.words.length = rs.length → e.dims = k →
      readWord2vecRaw lossy (pre ++ (first ++ 10 :: (rs.flatMap W2vRecord.bytes ++ rest))) pre.length = .ok (e, q) →
      ∃ t t' : List (Str × List F), t.Perm t' ∧ (t.map (·.1)).Nodup ∧
        e = ofTable (t.map fun r => (r.1, r.2, Scalar.zero)) k false ∧
        readWord2vecRaw lossy (pre ++ (first ++ 10 :: (rs'.flatMap W2vRecord.bytes ++ rest))) pre.length =
          .ok ((ofTable (t'.map fun r => (r.1, r.2, Scalar.zero)) k false : Embeddings T SimpleVocab (NdArray F) F), q) := by
    intro e hw hd h
    obtain ⟨n, k', p1, p2, rs0, ws, h1, h2, ha, ⟨b1, b2, b3, b4⟩, hn, rfl⟩ := (c48_accepts lossy _ _ _ e (by
      show e.dims ≠ 0
      rw [hd]; exact hk)).mp h
    obtain rfl : k' = k := hd
    obtain ⟨e1, e2⟩ := sameHead_dims hsp hnl (rs.flatMap W2vRecord.bytes ++ rest) (rs'.flatMap W2vRecord.bytes ++ rest) pre
    have hhead : (do let n ← readNumber 32; let k ← readNumber 10; return (n, k) : Rd (Nat × Nat))
        (pre ++ (first ++ 10 :: (rs.flatMap W2vRecord.bytes ++ rest))) pre.length = .ok ((n, k'), p2) :=
      Rd.bind_ok.mpr ⟨n, p1, h1, Rd.bind_ok.mpr ⟨k', p2, h2, rfl⟩⟩
    obtain rfl := e2 _ _ hhead
    rw [hhead] at e1
    obtain ⟨n', p1', g1, g⟩ := Rd.bind_ok.mp e1.symm
    obtain ⟨k2, p2', g2, g⟩ := Rd.bind_ok.mp g
    cases g
    have hdrop : ∀ z : Bytes, (pre ++ (first ++ 10 :: z)).drop (pre.length + (first.length + 1)) = z := by
      intro z
      rw [show pre ++ (first ++ 10 :: z) = (pre ++ first ++ [10]) ++ z by simp]
      exact List.drop_left' (by simp)
    have hwl : ws.length = rs0.length := by simpa using (congrArg List.length b3).symm
    have hw' : rs0.length = rs.length := by
      rw [← hwl, ← hw]
      exact (List.length_map _).symm
    obtain ⟨c1, c2⟩ := b4
    rw [hdrop] at c1
    obtain ⟨rfl, hrest⟩ := records_unique hr b2 hw'.symm c1
    -- the decoded words
    let g : W2vRecord → Str := fun r => match decodeToken lossy r.word with
      | .ok s => s
      | _ => []
    have hg : ∀ r ∈ rs, decodeToken lossy r.word = .ok (g r) := by
      intro r hr
      have hm : decodeToken lossy r.word ∈ ws.map Res.ok := by
        rw [← b3]
        exact List.mem_map_of_mem hr
      obtain ⟨s, -, hs⟩ := List.mem_map.mp hm
      show decodeToken lossy r.word = .ok (match decodeToken lossy r.word with
        | .ok s => s
        | _ => [])
      rw [← hs]
    have hws : ws = rs.map g := by
      have : rs.map (fun r => decodeToken lossy r.word) = (rs.map g).map Res.ok := by
        rw [List.map_map]
        exact List.map_congr_left hg
      rw [b3] at this
      exact (List.map_inj_right fun x y hxy => Res.ok.inj hxy).mp this
    subst hws
    let f : W2vRecord → Str × List F := fun r => (trimBy isWhitespace (g r), r.xs.map FloatBits.ofBits)
    have hlen : (rs.flatMap W2vRecord.bytes).length = (rs'.flatMap W2vRecord.bytes).length := (hp.flatMap_right _).length_eq
    refine ⟨rs.map f, rs'.map f, hp.map f, ?_, ?_, ?_⟩
    · simpa [f, List.map_map, Function.comp_def] using hn
    · simp [ofTable, f, List.map_map, Function.comp_def]
    · refine (c48_accepts lossy _ _ _ _ hk).mpr ⟨n, k', p1', _, rs', rs'.map g, g1, g2, ha, ⟨?_, ?_, ?_, ?_, ?_⟩, ?_, ?_⟩
      · rw [← hp.length_eq]; exact b1
      · exact fun r hr' => hr r (hp.mem_iff.mpr hr')
      · rw [List.map_map]
        exact List.map_congr_left fun r hr' => hg r (hp.mem_iff.mpr hr')
      · rw [hdrop]
        congr 1
        rw [c2, hlen, ← List.drop_drop, hdrop, List.drop_left' rfl]
      · rw [c2, hlen]
      · rw [List.map_map] at hn ⊢
        exact (hp.map _).nodup_iff.mp hn
      · simp [ofTable, f, List.map_map, Function.comp_def]
  constructor
  · intro h
    obtain ⟨t, t', ht, hn, rfl, h'⟩ := key e hw hd h
    exact ⟨_, h', table_answers (ht.map _) (by simpa [List.map_map, Function.comp_def] using hn) k false⟩
  · intro h
    unfold readWord2vec at h ⊢
    obtain ⟨e0, q0, h0, hl⟩ := Rd.bind_ok.mp h
    obtain ⟨hl, rfl⟩ := Rd.lift_ok.mp hl
    have hsame : e.vocab = e0.vocab ∧ e.dims = e0.dims := by
      obtain ⟨n, k, p1, p2, es, -, -, -, -, -, a6, rfl⟩ := readWord2vecRaw_ok.mp h0
      rw [normalizeRead_eq (by
        show Res.ok (indexMap _).len = Res.ok (List.map _ _).length
        rw [(indexMap_len_iff _).mpr a6, List.length_map, List.length_map])] at hl
      cases hl
      exact ⟨rfl, rfl⟩
    obtain ⟨t, t', ht, hn, rfl, h'⟩ := key e0 (hsame.1 ▸ hw) (hsame.2 ▸ hd) h0
    rw [normalize_table hn] at hl
    cases hl
    refine ⟨_, Rd.bind_ok.mpr ⟨_, _, h', Rd.lift_ok.mpr ⟨normalize_table ((ht.map _).nodup_iff.mp hn), rfl⟩⟩, ?_⟩
    exact table_answers (ht.map _) (by simpa [List.map_map, Function.comp_def] using hn) k true

end

/-! ## Examples -/

section
attribute [local instance] exampleScalar

/-- Two records with two components each. -/
def exampleRecords : List W2vRecord := [⟨ascii "a", [1, 2]⟩, ⟨ascii "\nb", [3, 4]⟩]

/-- `c123_word2vec` for a file that is accepted. -/
example := (c123_word2vec (T := Str) (F := F32) false [120] (ascii "2 2") [121] (by decide) (by decide) exampleRecords
  exampleRecords.reverse (by exact .swap _ _ _) 2 (by decide) (by decide)
  ⟨none, ⟨⟨2, [[1, 2], [3, 4]]⟩⟩, ⟨indexMap [['a'], ['b']], [['a'], ['b']]⟩, none⟩ 26 rfl rfl).1 (by decide +kernel)

end

end FF
