import Verif.Props.Accepted
import Verif.Props.Exact
import Verif.Props.Lookup

/-!
# C107: damage in one place of a file

What happens if bytes of an accepted file are changed within the numbers of a matrix, the codes of a quantized matrix, the
norms or a word: the file is still accepted, and only what is stored in the changed place changes. The theorems name the place
(`start`) and say what the changed file reads as, for all changes.
-/

namespace FF

open Rd Layout Embeddings Storage

/-- Specification: `d'` is `d` with other bytes at the positions from `s` up to, but not including `t`. -/
def ChangedWithin (d d' : Bytes) (s t : Nat) : Prop :=
  d'.length = d.length ∧ ∀ k, k < s ∨ t ≤ k → d'[k]? = d[k]?

/-- Data that agrees on all positions of a pattern. -/
theorem Matches.of_agree {d d' : Bytes} {pos : Nat} {pat : Pat} (h : Matches d pos pat)
    (ha : ∀ k, pos ≤ k → k < pos + pat.length → d'[k]? = d[k]?) : Matches d' pos pat := by
  intro i b hb
  have hi : i < pat.length := by
    rcases Nat.lt_or_ge i pat.length with h | h
    · exact h
    · rw [List.getElem?_eq_none h] at hb; cases hb
  rw [ha _ (by omega) (by omega)]
  exact h i b hb

theorem ChangedWithin.symm {d d' : Bytes} {s t : Nat} (h : ChangedWithin d d' s t) : ChangedWithin d' d s t :=
  ⟨h.1.symm, fun k hk => (h.2 k hk).symm⟩

theorem ChangedWithin.before {d d' : Bytes} {s t pos : Nat} {pat : Pat} (h : ChangedWithin d d' s t)
    (hp : pos + pat.length ≤ s) (hm : Matches d pos pat) : Matches d' pos pat :=
  Matches.of_agree hm fun k _ hk => h.2 k (.inl (by omega))

theorem ChangedWithin.behind {d d' : Bytes} {s t pos : Nat} {pat : Pat} (h : ChangedWithin d d' s t)
    (hp : t ≤ pos) (hm : Matches d pos pat) : Matches d' pos pat :=
  Matches.of_agree hm fun k hk _ => h.2 k (.inr (by omega))

/-- The bytes of the changed place. -/
theorem ChangedWithin.inside {d d' : Bytes} {s n : Nat} (h : ChangedWithin d d' s (s + n)) {bs : Bytes} (hn : bs.length = n)
    (hm : Matches d s (lit bs)) :
    ((d'.drop s).take n).length = n ∧ Matches d' s (lit ((d'.drop s).take n)) := by
  have hl : ((d'.drop s).take n).length = n := by
    rcases Matches.lit.mp hm with rfl | ⟨h1, _⟩
    · simp only [List.length_nil] at hn; subst hn; simp
    · have := h.1
      simp only [List.length_take, List.length_drop]
      omega
  refine ⟨hl, Matches.lit.mpr ?_⟩
  rw [hl]
  by_cases h0 : n = 0
  · subst h0; left; simp
  · right
    refine ⟨?_, rfl⟩
    simp only [List.length_take, List.length_drop] at hl
    omega

/-- In the patterns of `a`, the bytes `bs` have a place, and other bytes `bs'` there make it a pattern of `a'`, if `put bs' a'`. -/
def Slot {α : Type} (L : Nat → α → Pat → Prop) (a : α) (bs : Bytes) (put : Bytes → α → Prop) : Prop :=
  ∀ pos pat, L pos a pat → ∃ pre post, pat = pre ++ (lit bs ++ post) ∧
    ∀ bs' a', bs'.length = bs.length → put bs' a' → L pos a' (pre ++ (lit bs' ++ post))

section
variable {T V S : Type} [Toml T] [ReadChunk V] [ReadChunk S] {LV : Nat → V → Pat → Prop} {LS : Nat → S → Pat → Prop}

theorem read_slot (hV : Parses (readChunk : Rd V) LV) (hS : Parses (readChunk : Rd S) LS) {d : Bytes} {pos : Nat}
    {e : Embeddings T V S F32} (h : Embeddings.read d pos = .ok e) :
    (∀ bs put, Slot LS e.storage bs put → ∃ start, Matches d start (lit bs) ∧
      ∀ d', ChangedWithin d d' start (start + bs.length) → ∀ s, put ((d'.drop start).take bs.length) s →
        Embeddings.read d' pos = .ok { e with storage := s }) ∧
    (∀ bs put, Slot LV e.vocab bs put → ∃ start, Matches d start (lit bs) ∧
      ∀ d', ChangedWithin d d' start (start + bs.length) → ∀ v, put ((d'.drop start).take bs.length) v →
        Embeddings.read d' pos = .ok { e with vocab := v }) ∧
    (∀ n bs put, e.norms = some n → Slot NormsPat n bs put → ∃ start, Matches d start (lit bs) ∧
      ∀ d', ChangedWithin d d' start (start + bs.length) → ∀ n', put ((d'.drop start).take bs.length) n' →
        Embeddings.read d' pos = .ok { e with norms := some n' }) := by
  obtain ⟨hp, vp, sp, p, q, r, rfl, rfl, rfl, hh, hv, hs, hm, hn⟩ := (c67_read hV hS d pos e).mp h
  obtain ⟨hm1, hm⟩ := Matches.append.mp hm
  obtain ⟨hm2, hm3⟩ := Matches.append.mp hm
  -- the norms are found again if nothing behind the storage changes
  have hns : ∀ (d' : Bytes) (s t : Nat), ChangedWithin d d' s t → t ≤ pos + hp.length + vp.length + sp.length →
      match e.norms with
      | some n => ∃ np, NormsPat (pos + hp.length + vp.length + sp.length) n np ∧
          Matches d' (pos + hp.length + vp.length + sp.length) np
      | none => (∀ n np, NormsPat (pos + hp.length + vp.length + sp.length) n np →
          ¬ Matches d' (pos + hp.length + vp.length + sp.length) np) ∧
        ∀ len n, len < 2 ^ 64 → n < 2 ^ 64 → isizeMax < 4 * n →
          ¬ Matches d' (pos + hp.length + vp.length + sp.length)
            (lit (le32 6) ++ (lit (le64 len) ++ (lit (le64 n) ++ lit (le32 10)))) := by
    intro d' s t hc ht
    cases hnn : e.norms with
    | some n =>
      rw [hnn] at hn
      obtain ⟨np, h1, h2⟩ := hn
      exact ⟨np, h1, hc.behind ht h2⟩
    | none =>
      rw [hnn] at hn
      exact ⟨fun n np h1 h2 => hn.1 n np h1 (hc.symm.behind ht h2),
        fun len n h1 h2 h3 h4 => hn.2 len n h1 h2 h3 (hc.symm.behind ht h4)⟩
  refine ⟨fun bs put hslot => ?_, fun bs put hslot => ?_, fun n bs put hne hslot => ?_⟩
  · obtain ⟨pre, post, rfl, hput⟩ := hslot _ _ hs
    obtain ⟨ha, hb⟩ := Matches.append.mp hm3
    obtain ⟨hb, hc⟩ := Matches.append.mp hb
    refine ⟨_, hb, fun d' hd s hps => ?_⟩
    obtain ⟨hl, hin⟩ := hd.inside rfl hb
    have hS' := hput _ s hl hps
    refine (c67_read hV hS d' pos _).mpr ⟨hp, vp, _, _, _, _, rfl, rfl, rfl, hh, hv, hS', ?_, ?_⟩
    · refine Matches.append.mpr ⟨hd.before (by omega) hm1, Matches.append.mpr ⟨hd.before (by omega) hm2,
        Matches.append.mpr ⟨hd.before (by omega) ha, Matches.append.mpr ⟨hin, ?_⟩⟩⟩⟩
      rw [lit_length, hl]
      rw [lit_length] at hc
      exact hd.behind (by omega) hc
    · have := hns d' _ _ hd (by simp only [List.length_append, lit_length]; omega)
      simp only [List.length_append, lit_length, hl] at this ⊢
      exact this
  · obtain ⟨pre, post, rfl, hput⟩ := hslot _ _ hv
    obtain ⟨ha, hb⟩ := Matches.append.mp hm2
    obtain ⟨hb, hc⟩ := Matches.append.mp hb
    refine ⟨_, hb, fun d' hd v hpv => ?_⟩
    obtain ⟨hl, hin⟩ := hd.inside rfl hb
    have hV' := hput _ v hl hpv
    refine (c67_read hV hS d' pos _).mpr ⟨hp, _, sp, _, _, _, rfl, rfl, rfl, hh, hV', ?_, ?_, ?_⟩
    · simp only [List.length_append, lit_length, hl] at hs ⊢
      exact hs
    · refine Matches.append.mpr ⟨hd.before (by omega) hm1, Matches.append.mpr ⟨Matches.append.mpr
        ⟨hd.before (by omega) ha, Matches.append.mpr ⟨hin, ?_⟩⟩, ?_⟩⟩
      · rw [lit_length, hl]
        rw [lit_length] at hc
        exact hd.behind (by omega) hc
      · simp only [List.length_append, lit_length, hl] at hm3 ⊢
        exact hd.behind (by omega) hm3
    · have := hns d' _ _ hd (by simp only [List.length_append, lit_length]; omega)
      simp only [List.length_append, lit_length, hl] at this ⊢
      exact this
  · rw [hne] at hn
    obtain ⟨np, hnp, hmn⟩ := hn
    obtain ⟨pre, post, rfl, hput⟩ := hslot _ _ hnp
    obtain ⟨ha, hb⟩ := Matches.append.mp hmn
    obtain ⟨hb, hc⟩ := Matches.append.mp hb
    refine ⟨_, hb, fun d' hd n' hpn => ?_⟩
    obtain ⟨hl, hin⟩ := hd.inside rfl hb
    have hN' := hput _ n' hl hpn
    refine (c67_read hV hS d' pos _).mpr ⟨hp, vp, sp, _, _, _, rfl, rfl, rfl, hh, hv, hs, ?_, ?_⟩
    · exact Matches.append.mpr ⟨hd.before (by omega) hm1, Matches.append.mpr ⟨hd.before (by omega) hm2,
        hd.before (by omega) hm3⟩⟩
    · refine ⟨_, hN', Matches.append.mpr ⟨hd.before (by omega) ha, Matches.append.mpr ⟨hin, ?_⟩⟩⟩
      rw [lit_length, hl]
      rw [lit_length] at hc
      exact hd.behind (by omega) hc

end

/-! ## The places -/

/-- Putting numbers from bytes into a matrix and taking the bytes out again. -/
theorem ofFlat_bytes (n k : Nat) (bs : Bytes) (h : bs.length = 4 * (n * k)) :
    (Mat.ofFlat n k (decodeF32s (n * k) bs)).WF ∧ (Mat.ofFlat n k (decodeF32s (n * k) bs)).rows.length = n ∧
      floats (Mat.ofFlat n k (decodeF32s (n * k) bs)).rows.flatten = bs := by
  refine ⟨fun r hr => chunks_mem_length (k := k) (by rw [decodeF32s_length]; exact Nat.le_refl _) hr,
    chunks_length _ _ _, ?_⟩
  rw [Mat.ofFlat, flatten_chunks (decodeF32s_length _ _), ← encodeF32s_eq, encodeF32s_decodeF32s _ _ h]

theorem wf_flatten_length {α : Type} {m : Mat α} (h : m.WF) : m.rows.flatten.length = m.rows.length * m.cols := by
  rw [List.length_flatten, List.map_congr_left h, List.map_const', List.sum_replicate_nat]

theorem floats_length (xs : List F32) : (floats xs).length = 4 * xs.length := by
  rw [← encodeF32s_eq, encodeF32s_length]

theorem slot_array (a : NdArray F32) : Slot ArrayPat a (floats a.inner.rows.flatten) fun bs a' =>
    a' = ⟨Mat.ofFlat a.inner.rows.length a.inner.cols (decodeF32s (a.inner.rows.length * a.inner.cols) bs)⟩ := by
  rintro pos pat ⟨len, k, h1, hw, h2, h3, h4, h5, h6, h7, rfl⟩
  refine ⟨lit (le32 2) ++ (lit (le64 len) ++ (lit (le64 a.inner.rows.length) ++ (lit (le32 a.inner.cols) ++
      (lit (le32 10) ++ gap k)))), [], by simp only [List.append_assoc, List.append_nil], ?_⟩
  rintro bs a' hl rfl
  rw [floats_length, wf_flatten_length hw] at hl
  obtain ⟨w1, w2, w3⟩ := ofFlat_bytes _ _ bs hl
  refine ⟨len, k, h1, w1, ?_, h3, ?_, h5, h6, h7, ?_⟩
  · rw [w2]; exact h2
  · rw [w2]; exact h4
  · rw [w2, w3]; simp only [List.append_assoc, List.append_nil]; rfl

theorem slot_norms (n : NdNorms F32) : Slot NormsPat n (floats n.inner) fun bs n' =>
    n' = ⟨decodeF32s n.inner.length bs⟩ := by
  rintro pos pat ⟨len, k, h1, h2, h4, h5, h6, h7, rfl⟩
  refine ⟨lit (le32 6) ++ (lit (le64 len) ++ (lit (le64 n.inner.length) ++ (lit (le32 10) ++ gap k))), [],
    by simp only [List.append_assoc, List.append_nil], ?_⟩
  rintro bs n' hl rfl
  rw [floats_length] at hl
  have e : (decodeF32s n.inner.length bs).length = n.inner.length := decodeF32s_length _ _
  refine ⟨len, k, h1, ?_, ?_, h5, h6, h7, ?_⟩
  · rw [e]; exact h2
  · rw [e]; exact h4
  · rw [e, ← encodeF32s_eq (decodeF32s _ _), encodeF32s_decodeF32s _ _ hl]
    simp only [List.append_assoc, List.append_nil]

theorem slot_codes (a : QuantizedArray F32) : Slot QuantizedPat a a.codes.rows.flatten fun bs a' =>
    a' = { a with codes := Mat.ofFlat a.codes.rows.length a.codes.cols bs } := by
  rintro pos pat ⟨len, pf, nf, k, h1, h2, h3, hw, h5, h6, h7, h8, h9, h10, h11, h12, h13, h14, h15, h16, rfl⟩
  refine ⟨lit (le32 4) ++ (lit (le64 len) ++ (lit (le32 pf) ++ (lit (le32 nf) ++
      (lit (le32 a.quantizer.quantizers.length) ++ (lit (le32 (a.quantizer.quantizers.length * a.quantizer.subDim)) ++
      (lit (le32 a.quantizer.nCentroids) ++ (lit (le64 a.codes.rows.length) ++ (lit (le32 1) ++ (lit (le32 10) ++ (gap k ++
      (lit (a.quantizer.projection.toList.flatMap fun m => floats m.rows.flatten) ++
      (lit (a.quantizer.quantizers.flatMap fun m => floats m.rows.flatten) ++
      lit (a.norms.toList.flatMap floats))))))))))))), [], by simp only [List.append_assoc, List.append_nil], ?_⟩
  rintro bs a' hl rfl
  rw [wf_flatten_length hw.codes] at hl
  have hr : (Mat.ofFlat a.codes.rows.length a.codes.cols bs).rows.length = a.codes.rows.length := chunks_length _ _ _
  have hf : (Mat.ofFlat a.codes.rows.length a.codes.cols bs).rows.flatten = bs := flatten_chunks hl
  refine ⟨len, pf, nf, k, h1, h2, h3, ⟨hw.pq, fun r hr => chunks_mem_length (k := a.codes.cols) (by omega) hr, hw.cols,
    fun ns hns => (hw.norms ns hns).trans hr.symm⟩, h5, h6, h7, h8, ?_, h10, h11, ?_, ?_, h14, h15, h16, ?_⟩
  · rw [hr]; exact h9
  · rw [hr]; exact h12
  · rw [hr]; exact h13
  · rw [hr, hf]; simp only [List.append_assoc, List.append_nil]

/-- The row of a matrix made from bytes of a file. -/
theorem ofFlat_row (d : Bytes) (n k start i : Nat) (hi : i < n) (hd : start + 4 * (n * k) ≤ d.length ∨ n * k = 0) :
    (Mat.ofFlat n k (decodeF32s (n * k) ((d.drop start).take (4 * (n * k))))).row i =
      .ok ((List.range k).map fun j => mappedF32 d (start + 4 * (i * k + j))) := by
  have hik : i * k + k ≤ n * k := by
    have := Nat.mul_le_mul_right k (show i + 1 ≤ n from hi)
    rwa [Nat.add_mul, Nat.one_mul] at this
  unfold Mat.row Mat.ofFlat
  dsimp only
  rw [getElem?_chunks hi, decodeF32s_drop, decodeF32s_take (by omega)]
  have hb : ((d.drop start).take (4 * (n * k))).drop (4 * (i * k)) =
      (List.range (4 * (n * k) - 4 * (i * k))).map fun t => mappedByte d (start + 4 * (i * k) + t) := by
    apply List.ext_getElem?
    intro t
    rw [List.getElem?_drop]
    by_cases ht : t < 4 * (n * k) - 4 * (i * k)
    · rw [List.getElem?_take_of_lt (by omega), List.getElem?_drop, List.getElem?_map, List.getElem?_range ht]
      simp only [Option.map_some, mappedByte, List.getD_eq_getElem?_getD]
      rw [show start + (4 * (i * k) + t) = start + 4 * (i * k) + t by omega,
        List.getElem?_eq_getElem (show start + 4 * (i * k) + t < d.length by omega)]
      rfl
    · rw [List.getElem?_eq_none (by simp only [List.length_take]; omega), List.getElem?_eq_none (by simp; omega)]
  have htake : decodeF32s k (((d.drop start).take (4 * (n * k))).drop (4 * (i * k))) =
      decodeF32s k ((List.range (4 * k)).map fun t => mappedByte d (start + 4 * (i * k) + t)) := by
    rw [hb]
    apply List.ext_getElem?
    intro j
    rw [decodeF32s_getElem?, decodeF32s_getElem?]
    split
    · next hj =>
      congr 2
      apply List.ext_getElem?
      intro t
      by_cases ht : t < 4
      · rw [List.getElem?_take_of_lt ht, List.getElem?_take_of_lt ht, List.getElem?_drop, List.getElem?_drop,
          List.getElem?_map, List.getElem?_map, List.getElem?_range (by omega), List.getElem?_range (by omega)]
      · rw [List.getElem?_eq_none (by simp only [List.length_take]; omega),
          List.getElem?_eq_none (by simp only [List.length_take]; omega)]
    · rfl
  rw [htake, decodeF32s_mapped]
  simp only [Res.unwrap, Nat.mul_add, Nat.add_assoc]

/-- A place in what is wrapped. -/
theorem Slot.wrap {α β : Type} {L : Nat → α → Pat → Prop} {M : Nat → β → Pat → Prop} (mk : α → β)
    (hmk : ∀ pos a pat, M pos (mk a) pat ↔ L pos a pat) {a : α} {bs : Bytes} {f : Bytes → α}
    (h : Slot L a bs fun bs a' => a' = f bs) : Slot M (mk a) bs fun bs b => b = mk (f bs) := by
  intro pos pat hL
  obtain ⟨pre, post, h1, h2⟩ := h pos pat ((hmk _ _ _).mp hL)
  refine ⟨pre, post, h1, ?_⟩
  rintro bs' _ hl rfl
  exact (hmk _ _ _).mpr (h2 bs' _ hl rfl)

/-- The row of a matrix of codes made from bytes of a file. -/
theorem ofFlat_codes (d : Bytes) (n k start i : Nat) (hi : i < n) (hd : start + n * k ≤ d.length ∨ n * k = 0) :
    (Mat.ofFlat n k ((d.drop start).take (n * k))).row i =
      .ok ((List.range k).map fun j => d.getD (start + (i * k + j)) 0) := by
  have hik : i * k + k ≤ n * k := by
    have := Nat.mul_le_mul_right k (show i + 1 ≤ n from hi)
    rwa [Nat.add_mul, Nat.one_mul] at this
  unfold Mat.row Mat.ofFlat
  dsimp only
  rw [getElem?_chunks hi]
  refine congrArg Res.ok ?_
  apply List.ext_getElem?
  intro t
  by_cases ht : t < k
  · rw [List.getElem?_take_of_lt ht, List.getElem?_drop, List.getElem?_take_of_lt (by omega), List.getElem?_drop,
      List.getElem?_map, List.getElem?_range ht, Option.map_some, List.getD_eq_getElem?_getD,
      List.getElem?_eq_getElem (show start + (i * k + t) < d.length by omega)]
    rfl
  · rw [List.getElem?_eq_none (by simp only [List.length_take]; omega), List.getElem?_eq_none (by simp; omega)]

section
variable {T V S : Type} [Toml T] [ReadChunk V] [ReadChunk S] {LV : Nat → V → Pat → Prop} {LS : Nat → S → Pat → Prop}

theorem matrix_place (hV : Parses (readChunk : Rd V) LV) (hS : Parses (readChunk : Rd S) LS) (mk : NdArray F32 → S)
    (hmk : ∀ pos a pat, LS pos (mk a) pat ↔ ArrayPat pos a pat) (d : Bytes) (pos : Nat) (e : Embeddings T V S F32)
    (h : Embeddings.read d pos = .ok e) (a : NdArray F32) (ha : e.storage = mk a) (rows cols : Nat)
    (hs : shape a = (rows, cols)) :
    ∃ start, (rows * cols ≠ 0 → start + 4 * (rows * cols) ≤ d.length) ∧
      ∀ d', ChangedWithin d d' start (start + 4 * (rows * cols)) →
        ∃ a' : NdArray F32, Embeddings.read d' pos = .ok { e with storage := mk a' } ∧ shape a' = (rows, cols) ∧
          ∀ i, Storage.embedding a' i = if i < rows then
            .ok ((List.range cols).map fun j => mappedF32 d' (start + 4 * (i * cols + j))) else .panic := by
  obtain ⟨hp, vp, sp, p, q, r, rfl, rfl, rfl, hh, hv, hsp, hm, hn⟩ := (c67_read hV hS d pos e).mp h
  rw [ha] at hsp
  obtain ⟨len, k, _, hw, _⟩ := (hmk _ _ _).mp hsp
  cases hs
  obtain ⟨start, hm, hall⟩ := (read_slot hV hS h).1 _ _ (by rw [ha]; exact (slot_array a).wrap mk hmk)
  have hl : (floats a.inner.rows.flatten).length = 4 * (a.inner.rows.length * a.inner.cols) := by
    rw [floats_length, wf_flatten_length hw]
  rw [hl] at hall
  have hfit : start + 4 * (a.inner.rows.length * a.inner.cols) ≤ d.length ∨
      a.inner.rows.length * a.inner.cols = 0 := by
    rcases Matches.lit.mp hm with h0 | ⟨h1, _⟩
    · right; rw [h0] at hl; simp only [List.length_nil] at hl; omega
    · left; rw [hl] at h1; exact h1
  refine ⟨start, fun h0 => hfit.resolve_right h0, fun d' hd => ⟨_, hall d' hd _ rfl, ?_, fun i => ?_⟩⟩
  · show ((Mat.ofFlat _ _ _).rows.length, _) = _
    rw [show (Mat.ofFlat _ _ _ : Mat F32).rows.length = _ from chunks_length _ _ _]
    rfl
  · split
    · next hi =>
      exact ofFlat_row d' _ _ start i hi (by rw [hd.1]; exact hfit)
    · next hi =>
      show Mat.row _ i = _
      unfold Mat.row Mat.ofFlat
      dsimp only
      rw [List.getElem?_eq_none (by rw [chunks_length]; exact Nat.not_lt.mp hi)]
      rfl

theorem codes_place (hV : Parses (readChunk : Rd V) LV) (hS : Parses (readChunk : Rd S) LS) (mk : QuantizedArray F32 → S)
    (hmk : ∀ pos a pat, LS pos (mk a) pat ↔ QuantizedPat pos a pat) (d : Bytes) (pos : Nat) (e : Embeddings T V S F32)
    (h : Embeddings.read d pos = .ok e) (a : QuantizedArray F32) (ha : e.storage = mk a) (rows cols : Nat)
    (hs : (a.codes.nrows, a.codes.cols) = (rows, cols)) :
    ∃ start, (rows * cols ≠ 0 → start + rows * cols ≤ d.length) ∧
      ∀ d', ChangedWithin d d' start (start + rows * cols) →
        ∃ codes : Mat UInt8, Embeddings.read d' pos = .ok { e with storage := mk { a with codes } } ∧
          (codes.nrows, codes.cols) = (rows, cols) ∧
          ∀ i, codes.row i = if i < rows then
            .ok ((List.range cols).map fun j => d'.getD (start + (i * cols + j)) 0) else .panic := by
  obtain ⟨hp, vp, sp, p, q, r, rfl, rfl, rfl, hh, hv, hsp, hm, hn⟩ := (c67_read hV hS d pos e).mp h
  rw [ha] at hsp
  obtain ⟨len, pf, nf, k, _, _, _, hw, _⟩ := (hmk _ _ _).mp hsp
  cases hs
  obtain ⟨start, hm, hall⟩ := (read_slot hV hS h).1 _ _ (by rw [ha]; exact (slot_codes a).wrap mk hmk)
  have hl : a.codes.rows.flatten.length = a.codes.nrows * a.codes.cols := wf_flatten_length hw.codes
  rw [hl] at hall
  have hfit : start + a.codes.nrows * a.codes.cols ≤ d.length ∨ a.codes.nrows * a.codes.cols = 0 := by
    rcases Matches.lit.mp hm with h0 | ⟨h1, _⟩
    · right; rw [h0] at hl; simp only [List.length_nil] at hl; omega
    · left; rw [hl] at h1; exact h1
  refine ⟨start, fun h0 => hfit.resolve_right h0, fun d' hd => ⟨_, hall d' hd _ rfl, ?_, fun i => ?_⟩⟩
  · show ((Mat.ofFlat _ _ _).rows.length, _) = _
    rw [show (Mat.ofFlat _ _ _ : Mat UInt8).rows.length = _ from chunks_length _ _ _]
    rfl
  · split
    · next hi => exact ofFlat_codes d' _ _ start i hi (by rw [hd.1]; exact hfit)
    · next hi =>
      unfold Mat.row Mat.ofFlat
      dsimp only
      rw [List.getElem?_eq_none (by rw [chunks_length]; exact Nat.not_lt.mp hi)]
      rfl

/-- **C107**, matrices. The numbers of the matrix of an accepted file have a place. However they are changed, the file is still
accepted with the same metadata, vocabulary and norms, and with a matrix of the same shape whose row `i` is what the `i`-th
part of the place contains now. -/
theorem c107_matrix (hV : Parses (readChunk : Rd V) LV) (d : Bytes) (pos : Nat) (e : Embeddings T V (NdArray F32) F32)
    (h : Embeddings.read d pos = .ok e) (rows cols : Nat) (hs : shape e.storage = (rows, cols)) :
    ∃ start, (rows * cols ≠ 0 → start + 4 * (rows * cols) ≤ d.length) ∧
      ∀ d', ChangedWithin d d' start (start + 4 * (rows * cols)) →
        ∃ s : NdArray F32, Embeddings.read d' pos = .ok { e with storage := s } ∧ shape s = (rows, cols) ∧
          ∀ i, Storage.embedding s i = if i < rows then
            .ok ((List.range cols).map fun j => mappedF32 d' (start + 4 * (i * cols + j))) else .panic :=
  matrix_place hV c67_array id (fun _ _ _ => Iff.rfl) d pos e h e.storage rfl rows cols hs

/-- **C107**, matrices read through the wrapper. -/
theorem c107_wrapped_matrix (hV : Parses (readChunk : Rd V) LV) (d : Bytes) (pos : Nat) (e : Embeddings T V StorageWrap F32)
    (h : Embeddings.read d pos = .ok e) (a : NdArray F32) (ha : e.storage = .ndArray a) (rows cols : Nat)
    (hs : shape a = (rows, cols)) :
    ∃ start, (rows * cols ≠ 0 → start + 4 * (rows * cols) ≤ d.length) ∧
      ∀ d', ChangedWithin d d' start (start + 4 * (rows * cols)) →
        ∃ s : NdArray F32, Embeddings.read d' pos = .ok { e with storage := StorageWrap.ndArray s } ∧ shape s = (rows, cols) ∧
          ∀ i, Storage.embedding s i = if i < rows then
            .ok ((List.range cols).map fun j => mappedF32 d' (start + 4 * (i * cols + j))) else .panic :=
  matrix_place hV c67_storage .ndArray (fun _ _ _ => Iff.rfl) d pos e h a ha rows cols hs

/-- **C107**, quantized matrices. The codes have a place. However they are changed, the file is still accepted; the quantizer
and its norms are the same, and the codes of row `i` are what the `i`-th part of the place contains now. -/
theorem c107_codes (hV : Parses (readChunk : Rd V) LV) (d : Bytes) (pos : Nat) (e : Embeddings T V (QuantizedArray F32) F32)
    (h : Embeddings.read d pos = .ok e) (rows cols : Nat) (hs : (e.storage.codes.nrows, e.storage.codes.cols) = (rows, cols)) :
    ∃ start, (rows * cols ≠ 0 → start + rows * cols ≤ d.length) ∧
      ∀ d', ChangedWithin d d' start (start + rows * cols) →
        ∃ codes : Mat UInt8, Embeddings.read d' pos = .ok { e with storage := { e.storage with codes } } ∧
          (codes.nrows, codes.cols) = (rows, cols) ∧
          ∀ i, codes.row i = if i < rows then
            .ok ((List.range cols).map fun j => d'.getD (start + (i * cols + j)) 0) else .panic :=
  codes_place hV c67_quantized id (fun _ _ _ => Iff.rfl) d pos e h e.storage rfl rows cols hs

/-- **C107**, quantized matrices read through the wrapper. -/
theorem c107_wrapped_codes (hV : Parses (readChunk : Rd V) LV) (d : Bytes) (pos : Nat) (e : Embeddings T V StorageWrap F32)
    (h : Embeddings.read d pos = .ok e) (a : QuantizedArray F32) (ha : e.storage = .quantized a) (rows cols : Nat)
    (hs : (a.codes.nrows, a.codes.cols) = (rows, cols)) :
    ∃ start, (rows * cols ≠ 0 → start + rows * cols ≤ d.length) ∧
      ∀ d', ChangedWithin d d' start (start + rows * cols) →
        ∃ codes : Mat UInt8, Embeddings.read d' pos = .ok { e with storage := StorageWrap.quantized { a with codes } } ∧
          (codes.nrows, codes.cols) = (rows, cols) ∧
          ∀ i, codes.row i = if i < rows then
            .ok ((List.range cols).map fun j => d'.getD (start + (i * cols + j)) 0) else .panic :=
  codes_place hV c67_storage .quantized (fun _ _ _ => Iff.rfl) d pos e h a ha rows cols hs

/-- **C107**, norms. The norms have a place. However they are changed, the file is still accepted with the same metadata,
vocabulary and storage, and with as many norms, each being what its part of the place contains now. -/
theorem c107_norms (hV : Parses (readChunk : Rd V) LV) (hS : Parses (readChunk : Rd S) LS) (d : Bytes) (pos : Nat)
    (e : Embeddings T V S F32) (h : Embeddings.read d pos = .ok e) (n : NdNorms F32) (hn : e.norms = some n) :
    ∃ start, (n.inner ≠ [] → start + 4 * n.inner.length ≤ d.length) ∧
      ∀ d', ChangedWithin d d' start (start + 4 * n.inner.length) →
        Embeddings.read d' pos = .ok { e with norms := some ⟨(List.range n.inner.length).map fun j =>
          mappedF32 d' (start + 4 * j)⟩ } := by
  obtain ⟨start, hm, hall⟩ := (read_slot hV hS h).2.2 n _ _ hn (slot_norms n)
  rw [floats_length] at hall
  have hfit : start + 4 * n.inner.length ≤ d.length ∨ n.inner.length = 0 := by
    rcases Matches.lit.mp hm with h0 | ⟨h1, _⟩
    · right
      have := floats_length n.inner
      rw [h0] at this; simp only [List.length_nil] at this; omega
    · left; rw [floats_length] at h1; exact h1
  refine ⟨start, fun h0 => hfit.resolve_right fun h1 => h0 (List.length_eq_zero_iff.mp h1), fun d' hd => ?_⟩
  rw [hall d' hd _ rfl]
  have : decodeF32s n.inner.length ((d'.drop start).take (4 * n.inner.length)) =
      (List.range n.inner.length).map fun j => mappedF32 d' (start + 4 * j) := by
    rw [← decodeF32s_mapped, ← zeroPadded_eq]
    have hz : 4 * n.inner.length - ((d'.drop start).take (4 * n.inner.length)).length = 0 := by
      have := hd.1
      simp only [List.length_take, List.length_drop]; omega
    rw [hz, List.replicate_zero, List.append_nil]
  rw [this]

end

/-! ## Words -/

/-- Specification: `v'` is made like `v`, with `w` as the word `i`. -/
def Renamed (i : Nat) (w : Str) : VocabWrap → VocabWrap → Prop
  | .simple v, v' => ∃ u, v' = .simple u ∧ SimpleVocab.new (v.words.set i w) = .ok u
  | .bucket v, v' => ∃ u, v' = .bucket u ∧
      SubwordVocab.newWithBoundaries (v.words.set i w) v.minN v.maxN v.indexer v.bow v.eow = .ok u
  | .fastText v, v' => ∃ u, v' = .fastText u ∧
      SubwordVocab.newWithBoundaries (v.words.set i w) v.minN v.maxN v.indexer v.bow v.eow = .ok u
  | .explicit v, v' => ∃ u, v' = .explicit u ∧
      SubwordVocab.newWithBoundaries (v.words.set i w) v.minN v.maxN v.indexer v.bow v.eow = .ok u
  | .floret v, v' => ∃ u, v' = .floret u ∧
      SubwordVocab.newWithBoundaries (v.words.set i w) v.minN v.maxN v.indexer v.bow v.eow = .ok u

/-- The place of a word in a list of words. -/
theorem words_split (ws : List Str) (i : Nat) (w : Str) (h : ws[i]? = some w) :
    ∃ l r, ∀ w', (utf8 w').length = (utf8 w).length →
      (ws.set i w').flatMap string = l ++ (utf8 w' ++ r) ∧ ws.flatMap string = l ++ (utf8 w ++ r) := by
  have hi : i < ws.length := by
    rcases Nat.lt_or_ge i ws.length with h' | h'
    · exact h'
    · rw [List.getElem?_eq_none h'] at h; cases h
  have hw : ws = ws.take i ++ w :: ws.drop (i + 1) := by
    have := List.getElem?_eq_some_iff.mp h
    obtain ⟨_, rfl⟩ := this
    rw [List.getElem_cons_drop, List.take_append_drop]
  refine ⟨(ws.take i).flatMap string ++ le32 (utf8 w).length, (ws.drop (i + 1)).flatMap string, fun w' hl => ⟨?_, ?_⟩⟩
  · rw [List.set_eq_take_append_cons_drop, if_pos hi, List.flatMap_append, List.flatMap_cons, string, hl]
    simp only [List.append_assoc]
  · conv => lhs; rw [hw]
    rw [List.flatMap_append, List.flatMap_cons, string]
    simp only [List.append_assoc]

theorem set_all {ws : List Str} {i : Nat} {w w' : Str} (h : ws[i]? = some w) (hl : (utf8 w').length = (utf8 w).length)
    (ha : ∀ u ∈ ws, (utf8 u).length < 2 ^ 32) : ∀ u ∈ ws.set i w', (utf8 u).length < 2 ^ 32 := by
  intro u hu
  rcases List.mem_or_eq_of_mem_set hu with hu | rfl
  · exact ha u hu
  · rw [hl]; exact ha w (List.mem_of_getElem? h)

/-- The place of a word in a vocabulary. -/
theorem slot_word (v : VocabWrap) (i : Nat) (w : Str) (h : (Vocab.words v)[i]? = some w) :
    Slot VocabPat v (utf8 w) fun bs v' => ∃ w', bs = utf8 w' ∧ Renamed i w' v v' := by
  intro pos pat hL
  cases v with
  | simple v =>
    obtain ⟨len, ws, h1, h2, h3, hn, rfl⟩ := hL
    obtain ⟨hnd, rfl⟩ := SimpleVocab.new_eq_ok.mp hn
    obtain ⟨l, r, hs⟩ := words_split ws i w h
    refine ⟨lit (le32 1 ++ (le64 len ++ (le64 ws.length ++ l))), lit r, ?_, ?_⟩
    · rw [(hs w rfl).2]; simp only [lit_append, List.append_assoc]
    · rintro bs v' hl ⟨w', rfl, u, rfl, hu⟩
      refine ⟨len, ws.set i w', h1, by rw [List.length_set]; exact h2, set_all h hl h3, hu, ?_⟩
      rw [List.length_set, (hs w' hl).1]; simp only [lit_append, List.append_assoc]
  | bucket v =>
    obtain ⟨len, m, M, ex, ws, ix, h1, h2, h3, h4, h5, h6, h7, hn, rfl⟩ := hL
    obtain ⟨hnd, hub, rfl⟩ := SubwordVocab.newWithBoundaries_eq_ok.mp hn
    obtain ⟨l, r, hs⟩ := words_split ws i w h
    refine ⟨lit (le32 3 ++ (le64 len ++ (le64 ws.length ++ (le32 m ++ (le32 M ++ (le32 ex ++ l)))))), lit r, ?_, ?_⟩
    · rw [(hs w rfl).2]; simp only [lit_append, List.append_assoc]
    · rintro bs v' hl ⟨w', rfl, u, rfl, hu⟩
      refine ⟨len, m, M, ex, ws.set i w', ix, h1, h2, h3, h4, by rw [List.length_set]; exact h5, set_all h hl h6, h7, hu, ?_⟩
      rw [List.length_set, (hs w' hl).1]; simp only [lit_append, List.append_assoc]
  | fastText v =>
    obtain ⟨len, m, M, ex, ws, ix, h1, h2, h3, h4, h5, h6, h7, hn, rfl⟩ := hL
    obtain ⟨hnd, hub, rfl⟩ := SubwordVocab.newWithBoundaries_eq_ok.mp hn
    obtain ⟨l, r, hs⟩ := words_split ws i w h
    refine ⟨lit (le32 7 ++ (le64 len ++ (le64 ws.length ++ (le32 m ++ (le32 M ++ (le32 ex ++ l)))))), lit r, ?_, ?_⟩
    · rw [(hs w rfl).2]; simp only [lit_append, List.append_assoc]
    · rintro bs v' hl ⟨w', rfl, u, rfl, hu⟩
      refine ⟨len, m, M, ex, ws.set i w', ix, h1, h2, h3, h4, by rw [List.length_set]; exact h5, set_all h hl h6, h7, hu, ?_⟩
      rw [List.length_set, (hs w' hl).1]; simp only [lit_append, List.append_assoc]
  | explicit v =>
    obtain ⟨len, m, M, ws, gs, ix, h1, h2, h3, h4, h5, h6, h7, h8, hn, rfl⟩ := hL
    obtain ⟨hnd, hub, rfl⟩ := SubwordVocab.newWithBoundaries_eq_ok.mp hn
    obtain ⟨l, r, hs⟩ := words_split ws i w h
    refine ⟨lit (le32 8 ++ (le64 len ++ (le64 ws.length ++ (le64 gs.length ++ (le32 m ++ (le32 M ++ l)))))),
      lit (r ++ gs.flatMap fun g => string g.1 ++ le64 g.2), ?_, ?_⟩
    · rw [(hs w rfl).2]; simp only [lit_append, List.append_assoc]
    · rintro bs v' hl ⟨w', rfl, u, rfl, hu⟩
      refine ⟨len, m, M, ws.set i w', gs, ix, h1, h2, h3, by rw [List.length_set]; exact h4, h5, set_all h hl h6, h7, h8, hu, ?_⟩
      rw [List.length_set, (hs w' hl).1]; simp only [lit_append, List.append_assoc]
  | floret v =>
    obtain ⟨len, m, M, b, k, s, bow, eow, ix, _, _, _, _, _, _, _, _, _, _, hn, _⟩ := hL
    obtain ⟨_, _, rfl⟩ := SubwordVocab.newWithBoundaries_eq_ok.mp hn
    simp [Vocab.words] at h

/-- What was made with a list of words can be made with another list of the same length without repetitions. -/
theorem renamed_exists {pos : Nat} {v : VocabWrap} {pat : Pat} (hL : VocabPat pos v pat) (i : Nat) (w : Str)
    (hnd : ((Vocab.words v).set i w).Nodup) : ∃ v', Renamed i w v v' ∧ Vocab.words v' = (Vocab.words v).set i w := by
  have key : ∀ {I : Type} [Indexer I] {ws : List Str} {m M : Nat} {ix : I} {bow eow : Str} {v : SubwordVocab I},
      SubwordVocab.newWithBoundaries ws m M ix bow eow = .ok v → (v.words.set i w).Nodup →
      ∃ u, SubwordVocab.newWithBoundaries (v.words.set i w) v.minN v.maxN v.indexer v.bow v.eow = .ok u ∧
        u.words = v.words.set i w := by
    intro I _ ws m M ix bow eow v hn hnd
    obtain ⟨_, ⟨ub, h1, h2⟩, rfl⟩ := SubwordVocab.newWithBoundaries_eq_ok.mp hn
    exact ⟨_, SubwordVocab.newWithBoundaries_eq_ok.mpr ⟨hnd, ⟨ub, h1, by rw [List.length_set]; exact h2⟩, rfl⟩, rfl⟩
  cases v with
  | simple v => exact ⟨_, ⟨_, rfl, SimpleVocab.new_eq_ok.mpr ⟨hnd, rfl⟩⟩, rfl⟩
  | bucket v =>
    obtain ⟨_, _, _, _, _, _, _, _, _, _, _, _, _, hn, _⟩ := hL
    obtain ⟨u, h1, h2⟩ := key hn hnd
    exact ⟨_, ⟨u, rfl, h1⟩, h2⟩
  | fastText v =>
    obtain ⟨_, _, _, _, _, _, _, _, _, _, _, _, _, hn, _⟩ := hL
    obtain ⟨u, h1, h2⟩ := key hn hnd
    exact ⟨_, ⟨u, rfl, h1⟩, h2⟩
  | explicit v =>
    obtain ⟨_, _, _, _, _, _, _, _, _, _, _, _, _, _, hn, _⟩ := hL
    obtain ⟨u, h1, h2⟩ := key hn hnd
    exact ⟨_, ⟨u, rfl, h1⟩, h2⟩
  | floret v =>
    obtain ⟨_, _, _, _, _, _, _, _, _, _, _, _, _, _, _, _, _, _, _, hn, _⟩ := hL
    obtain ⟨u, h1, h2⟩ := key hn hnd
    exact ⟨_, ⟨u, rfl, h1⟩, h2⟩

/-- **C107**, words. A word of an accepted file has a place, and if its bytes are changed into those of a word that the
vocabulary does not contain otherwise, the file is accepted, with the new word in place of the old one and everything else as
before. -/
theorem c107_word {T S : Type} [Toml T] [ReadChunk S] {LS : Nat → S → Pat → Prop} (hS : Parses (readChunk : Rd S) LS)
    (d : Bytes) (pos : Nat) (e : Embeddings T VocabWrap S F32) (h : Embeddings.read d pos = .ok e) (i : Nat) (w : Str)
    (hw : (Vocab.words e.vocab)[i]? = some w) :
    ∃ start, (d.drop start).take (utf8 w).length = utf8 w ∧
      ∀ d', ChangedWithin d d' start (start + (utf8 w).length) →
        ∀ w', (d'.drop start).take (utf8 w).length = utf8 w' → ((Vocab.words e.vocab).set i w').Nodup →
          ∃ v, Embeddings.read d' pos = .ok { e with vocab := v } ∧ Renamed i w' e.vocab v ∧
            Vocab.words v = (Vocab.words e.vocab).set i w' := by
  obtain ⟨start, hm, hall⟩ := (read_slot c67_vocab hS h).2.1 _ _ (slot_word e.vocab i w hw)
  obtain ⟨hp, vp, sp, p, q, r, rfl, rfl, rfl, hh, hv, -⟩ := (c67_read c67_vocab hS d pos e).mp h
  refine ⟨start, ?_, fun d' hd w' hw' hnd => ?_⟩
  · rcases Matches.lit.mp hm with h0 | ⟨_, h1⟩
    · rw [h0]; simp
    · exact h1.symm
  · obtain ⟨v, h1, h2⟩ := renamed_exists hv i w' hnd
    exact ⟨v, hall d' hd v ⟨w', hw', h1⟩, h1, h2⟩

/-! ## Lookups -/

/-- Specification: the rows that the vector of a word is computed from. -/
def rowsOf : Res (Option WordIndex) → List Nat
  | .ok (some (.word i)) => [i]
  | .ok (some (.subword is)) => is
  | _ => []

theorem mapM_congr {α β : Type} {f g : α → Res β} {l : List α} (h : ∀ a ∈ l, f a = g a) : l.mapM f = l.mapM g := by
  induction l with
  | nil => rfl
  | cons a l ih =>
    rw [List.mapM_cons, List.mapM_cons, h a (by simp), ih fun x hx => h x (by simp [hx])]

theorem mappedF32_congr {d d' : Bytes} {k : Nat} (h : ∀ j, k ≤ j → j < k + 4 → d'[j]? = d[j]?) :
    mappedF32 d' k = mappedF32 d k := by
  unfold mappedF32 mappedByte
  simp only [List.getD_eq_getElem?_getD]
  rw [h k (by omega) (by omega), h (k + 1) (by omega) (by omega), h (k + 2) (by omega) (by omega),
    h (k + 3) (by omega) (by omega)]

/-- **C107**, lookups. Changes within the numbers of the matrix leave the vectors of all words as they were, except of those
that are computed from a changed row. -/
theorem c107_lookup {T V : Type} [Toml T] [ReadChunk V] [Vocab V] [Scalar F32] {LV : Nat → V → Pat → Prop}
    (hV : Parses (readChunk : Rd V) LV) (d : Bytes) (pos : Nat) (e : Embeddings T V (NdArray F32) F32)
    (h : Embeddings.read d pos = .ok e) (rows cols : Nat) (hs : shape e.storage = (rows, cols)) :
    ∃ start, (rows * cols ≠ 0 → start + 4 * (rows * cols) ≤ d.length) ∧
      ∀ d', ChangedWithin d d' start (start + 4 * (rows * cols)) →
        ∃ e' : Embeddings T V (NdArray F32) F32, Embeddings.read d' pos = .ok e' ∧
        ∀ w, (∀ i ∈ rowsOf (Vocab.idx e.vocab w), ∀ k, start + 4 * (i * cols) ≤ k → k < start + 4 * (i * cols + cols) →
          d'[k]? = d[k]?) → e'.embedding w = e.embedding w := by
  obtain ⟨start, hfit, hall⟩ := c107_matrix hV d pos e h rows cols hs
  refine ⟨start, hfit, fun d' hd => ?_⟩
  obtain ⟨s0, h0, -, hr0⟩ := hall d ⟨rfl, fun _ _ => rfl⟩
  rw [h] at h0
  have hs0 : e.storage = s0 := congrArg Embeddings.storage (Res.ok.inj h0)
  obtain ⟨s, h1, hsh, hr⟩ := hall d' hd
  refine ⟨_, h1, fun w hw => ?_⟩
  have hrow : ∀ i ∈ rowsOf (Vocab.idx e.vocab w), Storage.embedding s i = Storage.embedding e.storage i := by
    intro i hi
    rw [hs0, hr0, hr]
    split
    · refine congrArg Res.ok (List.map_congr_left fun j hj => mappedF32_congr fun k hk1 hk2 => hw i hi k ?_ ?_)
      · omega
      · have := List.mem_range.mp hj; omega
    · rfl
  have hcols : s.inner.cols = e.storage.inner.cols := by
    have h1 : s.inner.cols = cols := congrArg Prod.snd hsh
    have h2 : e.storage.inner.cols = cols := congrArg Prod.snd hs
    rw [h1, h2]
  unfold Embeddings.embedding
  dsimp only
  cases hidx : Vocab.idx e.vocab w with
  | err _ => rfl
  | panic => rfl
  | ok o =>
    rw [hidx] at hrow
    cases o with
    | none => rfl
    | some x =>
      cases x with
      | word i =>
        show (Storage.embedding s i >>= _) = (Storage.embedding e.storage i >>= _)
        rw [hrow i (by simp [rowsOf])]
      | subword is =>
        have : (Storage.embeddings s is : Res (Mat F32)) = Storage.embeddings e.storage is := by
          show s.inner.select is = e.storage.inner.select is
          unfold Mat.select
          have hrow' : ∀ i ∈ is, s.inner.row i = e.storage.inner.row i := fun i hi => hrow i hi
          rw [mapM_congr hrow', hcols]
        show (Storage.embeddings s is >>= _) = (Storage.embeddings e.storage is >>= _)
        rw [this]

/-! ## Lengths of chunks -/

/-- Patterns that begin with four fixed bytes and any eight bytes. -/
def AnyLength {α : Type} (L : Nat → α → Pat → Prop) : Prop := ∀ pos a pat, L pos a pat →
  ∃ (id len : Nat) (rest : Pat), len < 2 ^ 64 ∧ pat = lit (le32 id) ++ (lit (le64 len) ++ rest) ∧
    ∀ len' < 2 ^ 64, L pos a (lit (le32 id) ++ (lit (le64 len') ++ rest))

theorem AnyLength.same {α : Type} {p : Rd α} {L : Nat → α → Pat → Prop} (hp : Parses p L) (hL : AnyLength L) {d d' : Bytes}
    {pos : Nat} (hc : ChangedWithin d d' (pos + 4) (pos + 12)) {a : α} {q : Nat} (h : p d pos = .ok (a, q)) :
    p d' pos = .ok (a, q) := by
  obtain ⟨pat, hl, hm, rfl⟩ := (hp _ _ _ _).mp h
  obtain ⟨id, len, rest, _, rfl, hfree⟩ := hL _ _ _ hl
  obtain ⟨h1, h2⟩ := Matches.append.mp hm
  obtain ⟨h2, h3⟩ := Matches.append.mp h2
  have e4 : (lit (le32 id)).length = 4 := by rw [lit_length]; rfl
  have e8 : (lit (le64 len)).length = 8 := by rw [lit_length]; rfl
  rw [e4] at h2 h3
  rw [e8] at h3
  obtain ⟨hl8, hin⟩ := (show ChangedWithin d d' (pos + 4) (pos + 4 + 8) from hc).inside rfl h2
  have hv := leVal_lt ((d'.drop (pos + 4)).take 8)
  rw [hl8] at hv
  have hlt : leVal ((d'.drop (pos + 4)).take 8) < 2 ^ 64 := hv
  refine (hp _ _ _ _).mpr ⟨_, hfree _ hlt, ?_, ?_⟩
  · rw [le64_leVal hl8]
    refine Matches.append.mpr ⟨hc.before (by rw [e4]; omega) h1, ?_⟩
    rw [e4]
    refine Matches.append.mpr ⟨hin, ?_⟩
    rw [lit_length, hl8]
    exact hc.behind (by omega) h3
  · simp only [List.length_append, lit_length]; rfl

theorem AnyLength.iff {α : Type} {p : Rd α} {L : Nat → α → Pat → Prop} (hp : Parses p L) (hL : AnyLength L) {d d' : Bytes}
    {pos : Nat} (hc : ChangedWithin d d' (pos + 4) (pos + 12)) {r : α × Nat} : p d' pos = .ok r ↔ p d pos = .ok r :=
  ⟨hL.same hp hc.symm, hL.same hp hc⟩

theorem anyLength_vocab : AnyLength VocabPat := by
  intro pos v pat h
  cases v with
  | simple v =>
    obtain ⟨len, ws, h0, h1, h2, h3, rfl⟩ := h
    exact ⟨1, len, _, h0, by simp only [lit_append]; rfl, fun len' h' => ⟨len', ws, h', h1, h2, h3, by simp only [lit_append]⟩⟩
  | bucket v =>
    obtain ⟨len, m, M, ex, ws, ix, h0, h1, h2, h3, h4, h5, h6, h7, rfl⟩ := h
    exact ⟨3, len, _, h0, by simp only [lit_append]; rfl, fun len' h' => ⟨len', m, M, ex, ws, ix, h', h1, h2, h3, h4, h5, h6, h7, by simp only [lit_append]⟩⟩
  | fastText v =>
    obtain ⟨len, m, M, ex, ws, ix, h0, h1, h2, h3, h4, h5, h6, h7, rfl⟩ := h
    exact ⟨7, len, _, h0, by simp only [lit_append]; rfl, fun len' h' => ⟨len', m, M, ex, ws, ix, h', h1, h2, h3, h4, h5, h6, h7, by simp only [lit_append]⟩⟩
  | explicit v =>
    obtain ⟨len, m, M, ws, gs, ix, h0, h1, h2, h3, h4, h5, h6, h7, h8, rfl⟩ := h
    exact ⟨8, len, _, h0, by simp only [lit_append]; rfl, fun len' h' => ⟨len', m, M, ws, gs, ix, h', h1, h2, h3, h4, h5, h6, h7, h8, by simp only [lit_append]⟩⟩
  | floret v =>
    obtain ⟨len, m, M, b, k, s, bow, eow, ix, h0, h1, h2, h3, h4, h5, h6, h7, h8, h9, h10, rfl⟩ := h
    exact ⟨9, len, _, h0, by simp only [lit_append]; rfl, fun len' h' => ⟨len', m, M, b, k, s, bow, eow, ix, h', h1, h2, h3, h4, h5, h6, h7, h8, h9, h10,
      by simp only [lit_append]⟩⟩

theorem anyLength_storage : AnyLength StoragePat := by
  intro pos v pat h
  cases v with
  | ndArray a =>
    obtain ⟨len, k, h0, h1, h2, h3, h4, h5, h6, h7, rfl⟩ := h
    exact ⟨2, len, _, h0, rfl, fun len' h' => ⟨len', k, h', h1, h2, h3, h4, h5, h6, h7, rfl⟩⟩
  | quantized a =>
    obtain ⟨len, pf, nf, k, h0, h1, h2, h3, h4, h5, h6, h7, h8, h9, h10, h11, h12, h13, h14, h15, rfl⟩ := h
    exact ⟨4, len, _, h0, rfl, fun len' h' => ⟨len', pf, nf, k, h', h1, h2, h3, h4, h5, h6, h7, h8, h9, h10, h11, h12, h13, h14,
      h15, rfl⟩⟩
  | mmapArray a => exact h.elim
  | mmapQuantized a => exact h.elim

theorem anyLength_norms : AnyLength NormsPat := by
  rintro pos v pat ⟨len, k, h0, h1, h2, h3, h4, h5, rfl⟩
  exact ⟨6, len, _, h0, rfl, fun len' h' => ⟨len', k, h', h1, h2, h3, h4, h5, rfl⟩⟩

/-- **C107**, lengths. The length that a chunk of a vocabulary, a storage or norms begins with is not used when the chunk is read:
with any other eight bytes in its place, the chunk is accepted with the same result. -/
theorem c107_length (d d' : Bytes) (pos : Nat) (hc : ChangedWithin d d' (pos + 4) (pos + 12)) :
    (∀ r, (readChunk : Rd VocabWrap) d' pos = .ok r ↔ (readChunk : Rd VocabWrap) d pos = .ok r) ∧
    (∀ r, (readChunk : Rd StorageWrap) d' pos = .ok r ↔ (readChunk : Rd StorageWrap) d pos = .ok r) ∧
    (∀ r, (readChunk : Rd (NdNorms F32)) d' pos = .ok r ↔ (readChunk : Rd (NdNorms F32)) d pos = .ok r) :=
  ⟨fun _ => anyLength_vocab.iff c67_vocab hc, fun _ => anyLength_storage.iff c67_storage hc,
    fun _ => anyLength_norms.iff c67_norms hc⟩

/-! ## Examples -/

attribute [local instance] exampleToml exampleScalar

/-- `exampleFile` with other bytes in place of the second number. -/
def damagedFile : Bytes := exampleFile.take 84 ++ [1, 2, 3, 4]

theorem damagedFile_changed : ChangedWithin exampleFile damagedFile 80 (80 + 4 * (2 * 1)) := by
  refine ⟨by decide +kernel, fun k hk => ?_⟩
  have h1 : exampleFile.length = 88 := by decide +kernel
  have h2 : damagedFile.length = 88 := by decide +kernel
  rcases hk with hk | hk
  · have : ∀ k < 80, damagedFile[k]? = exampleFile[k]? := by decide +kernel
    exact this k hk
  · rw [List.getElem?_eq_none (by omega), List.getElem?_eq_none (by omega)]

example := c107_matrix c67_simple exampleFile 0 _ exampleFile_read 2 1 rfl
example := c107_lookup c67_simple exampleFile 0 _ exampleFile_read 2 1 rfl

/-- The damaged file: the second row has changed. -/
example : (Embeddings.read damagedFile 0 : Res (Embeddings Str SimpleVocab (NdArray F32) F32)) =
    .ok ⟨none, ⟨⟨1, [[0x3f800000], [0x04030201]]⟩⟩, ⟨createIndices [['a'], ['b', 'c']], [['a'], ['b', 'c']]⟩, none⟩ := by
  decide +kernel

/-- A file with three words, a quantized matrix with norms, and norms. -/
def quantizedFile : Bytes := [0x46, 0x69, 0x46, 0x75] ++ (le32 0 ++ (le32 3 ++ (le32 1 ++ le32 4 ++ le32 6))) ++
  (le32 1 ++ (le64 0 ++ (le64 3 ++ (string ['a'] ++ (string ['b', 'c'] ++ string ['d']))))) ++
  (writeChunk exampleQuantized 60).bytes ++
  (le32 6 ++ le64 0 ++ le64 3 ++ le32 10 ++ [0, 0] ++ floats [1, 2, 3])

theorem quantizedFile_read : (Embeddings.read quantizedFile 0 : Res (Embeddings Str VocabWrap StorageWrap F32)) =
    .ok ⟨none, .quantized exampleQuantized, .simple ⟨createIndices [['a'], ['b', 'c'], ['d']], [['a'], ['b', 'c'], ['d']]⟩,
      some ⟨[1, 2, 3]⟩⟩ := by
  decide +kernel

theorem quantizedFile_read' : (Embeddings.read quantizedFile 0 : Res (Embeddings Str SimpleVocab (QuantizedArray F32) F32)) =
    .ok ⟨none, exampleQuantized, ⟨createIndices [['a'], ['b', 'c'], ['d']], [['a'], ['b', 'c'], ['d']]⟩, some ⟨[1, 2, 3]⟩⟩ := by
  decide +kernel

example := c107_codes c67_simple quantizedFile 0 _ quantizedFile_read' 3 2 rfl
example := c107_wrapped_codes c67_vocab quantizedFile 0 _ quantizedFile_read exampleQuantized rfl 3 2 rfl
example := c107_norms c67_vocab c67_storage quantizedFile 0 _ quantizedFile_read ⟨[1, 2, 3]⟩ rfl
example := c107_word c67_storage quantizedFile 0 _ quantizedFile_read 1 ['b', 'c'] rfl

/-- The word `bc` changed into `x` followed by a space, which is still a word, and into the invalid byte 255. -/
example : (Embeddings.read (quantizedFile.take 53 ++ ([0x78, 0x20] ++ quantizedFile.drop 55)) 0 :
      Res (Embeddings Str VocabWrap StorageWrap F32)).map (fun e => Vocab.words e.vocab) = .ok [['a'], ['x', ' '], ['d']] ∧
    (Embeddings.read (quantizedFile.take 53 ++ ([0xff, 0xff] ++ quantizedFile.drop 55)) 0 :
      Res (Embeddings Str VocabWrap StorageWrap F32)).map (fun e => Vocab.words e.vocab) = .err .format := by
  decide +kernel

theorem exampleFile_read' : (Embeddings.read exampleFile 0 : Res (Embeddings Str VocabWrap StorageWrap F32)) =
    .ok ⟨none, .ndArray ⟨⟨1, [[0x3f800000], [0x40000000]]⟩⟩, .simple ⟨createIndices [['a'], ['b', 'c']], [['a'], ['b', 'c']]⟩,
      none⟩ := by
  decide +kernel

example := c107_wrapped_matrix c67_vocab exampleFile 0 _ exampleFile_read' ⟨⟨1, [[0x3f800000], [0x40000000]]⟩⟩ rfl 2 1 rfl

/-- The chunk of an array with two lengths. -/
example : ChangedWithin (writeNdArray ⟨1, [[5]]⟩ 0).bytes ((writeNdArray ⟨1, [[5]]⟩ 0).bytes.take 4 ++ (le64 77 ++
      (writeNdArray ⟨1, [[5]]⟩ 0).bytes.drop 12)) (0 + 4) (0 + 12) ∧
    (readChunk : Rd StorageWrap) (writeNdArray ⟨1, [[5]]⟩ 0).bytes 0 = .ok (.ndArray ⟨⟨1, [[5]]⟩⟩, 36) := by
  refine ⟨⟨by decide +kernel, fun k hk => ?_⟩, by decide +kernel⟩
  rcases Nat.lt_or_ge k 36 with h | h
  · have : ∀ k < 36, k < 4 ∨ 12 ≤ k → ((writeNdArray ⟨1, [[5]]⟩ 0).bytes.take 4 ++ (le64 77 ++
      (writeNdArray ⟨1, [[5]]⟩ 0).bytes.drop 12))[k]? = (writeNdArray ⟨1, [[5]]⟩ 0).bytes[k]? := by decide +kernel
    exact this k h hk
  · have h1 : (writeNdArray ⟨1, [[5]]⟩ 0).bytes.length = 36 := by decide +kernel
    have h2 : ((writeNdArray ⟨1, [[5]]⟩ 0).bytes.take 4 ++ (le64 77 ++
      (writeNdArray ⟨1, [[5]]⟩ 0).bytes.drop 12)).length = 36 := by decide +kernel
    rw [List.getElem?_eq_none (by omega), List.getElem?_eq_none (by omega)]

end FF
