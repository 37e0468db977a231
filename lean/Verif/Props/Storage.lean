import Verif.Lemmas.ResList
import Verif.Lemmas.Storage
import Verif.Lemmas.ReadAt
import Verif.Model.Wrappers
import Verif.Props.StorageIO

/-!
# Row access (C47)
-/

namespace FF

open Rd Res

/-- Specification: batch access succeeds exactly when every single access does, and then its rows are the
single rows, in order; it never returns an error. -/
def BatchIsRows {S F : Type} [Storage S F] (s : S) : Prop :=
  ∀ is : List Nat, (∀ m, embeddings s is = .ok m ↔
    m.cols = (shape s).2 ∧ is.map (embedding s) = m.rows.map Res.ok) ∧ NoErr (embeddings s is)

theorem noErr_row {α : Type} (m : Mat α) (i : Nat) : NoErr (m.row i) := noErr_unwrap _

theorem select_eq {α : Type} (m : Mat α) (is : List Nat) :
    m.select is = (is.mapM m.row).map fun rs => ⟨m.cols, rs⟩ := by
  unfold Mat.select; cases is.mapM m.row <;> rfl

theorem mat_ok_iff {α : Type} {f : Nat → Res (List α)} {is : List Nat} {c : Nat} {m : Mat α} :
    (is.mapM f).map (fun rs => (⟨c, rs⟩ : Mat α)) = .ok m ↔ m.cols = c ∧ is.map f = m.rows.map Res.ok := by
  rw [map_eq_ok]
  constructor
  · rintro ⟨rs, h, rfl⟩; exact ⟨rfl, mapM_eq_ok_iff.mp h⟩
  · rintro ⟨rfl, h⟩; exact ⟨m.rows, mapM_eq_ok_iff.mpr h, rfl⟩

/-- C47 for dense arrays. -/
theorem c47_array {F : Type} (a : NdArray F) : BatchIsRows a := by
  intro is
  constructor
  · intro m
    show a.inner.select is = _ ↔ _
    rw [select_eq]; exact mat_ok_iff
  · show NoErr (a.inner.select is)
    rw [select_eq]; exact noErr_map (noErr_mapM (noErr_row _))

theorem noErr_slice (m : Mmap) (s n : Nat) : NoErr (m.slice s n) := by
  unfold Mmap.slice; split
  · exact noErr_ok _
  · split
    · exact noErr_ok _
    · exact noErr_panic

theorem noErr_mmapRow (a : MmapArray) (i : Nat) : NoErr (a.row i) := by
  unfold MmapArray.row; split
  · exact noErr_map (noErr_slice _ _ _)
  · exact noErr_panic

/-- C47 for memory-mapped arrays. -/
theorem c47_mmap_array (a : MmapArray) : BatchIsRows a := by
  intro is
  exact ⟨fun m => mat_ok_iff, noErr_map (noErr_mapM (noErr_mmapRow a))⟩

section
variable {F : Type} [Scalar F]

omit [Scalar F] in
theorem noErr_centroids (q : Pq F) (c : List UInt8) : NoErr (q.centroids c) := by
  unfold Pq.centroids
  refine noErr_bind (noErr_assert _) fun _ => noErr_bind (noErr_mapM fun p => noErr_row _ _) fun _ => noErr_ok _

theorem noErr_reconstruct (q : Pq F) (c : List UInt8) : NoErr (q.reconstruct c) :=
  noErr_map (noErr_centroids q c)

theorem reconstructBatch_eq (q : Pq F) (m : Mat UInt8) :
    q.reconstructBatch m = (m.rows.mapM q.reconstruct).map fun rs => ⟨q.reconstructedLen, rs⟩ := by
  have : m.rows.mapM q.reconstruct = (m.rows.mapM q.centroids).map (List.map q.project) :=
    (mapM_map_res _ _ _).symm
  rw [this]
  unfold Pq.reconstructBatch
  cases m.rows.mapM q.centroids <;> rfl

theorem quantizedRow_none (q : Pq F) (code : Nat → Res (List UInt8)) (i : Nat) :
    quantizedRow q none code i = code i >>= q.reconstruct := by
  unfold quantizedRow
  cases code i with
  | ok c => simp only [ok_bind]; cases q.reconstruct c <;> rfl
  | err e => rfl
  | panic => rfl

theorem scaled_rows_iff (q : Pq F) (ns : List F) (code : Nat → Res (List UInt8)) (is : List Nat)
    (rows : List (List F)) :
    (∃ cs rs sel, is.mapM code = .ok cs ∧ cs.mapM q.reconstruct = .ok rs ∧
      (is.mapM fun i => Res.unwrap ns[i]?) = .ok sel ∧ rows = rs.zipWith scale sel) ↔
    is.mapM (quantizedRow q (some ns) code) = .ok rows := by
  induction is generalizing rows with
  | nil =>
    constructor
    · rintro ⟨cs, rs, sel, h1, h2, h3, rfl⟩
      simp only [List.mapM_nil] at h1 h3
      cases h1; cases h3
      simp only [List.mapM_nil] at h2
      cases h2; rfl
    · intro h
      cases h
      exact ⟨[], [], [], rfl, rfl, rfl, rfl⟩
  | cons i is ih =>
    simp only [List.mapM_cons]
    constructor
    · rintro ⟨cs, rs, sel, h1, h2, h3, rfl⟩
      obtain ⟨c, hc, h1⟩ := bind_eq_ok.mp h1
      obtain ⟨cs', hcs, h1⟩ := bind_eq_ok.mp h1
      cases h1
      simp only [List.mapM_cons] at h2
      obtain ⟨r, hr, h2⟩ := bind_eq_ok.mp h2
      obtain ⟨rs', hrs, h2⟩ := bind_eq_ok.mp h2
      cases h2
      obtain ⟨n, hn, h3⟩ := bind_eq_ok.mp h3
      obtain ⟨sel', hsel, h3⟩ := bind_eq_ok.mp h3
      cases h3
      have hrow : quantizedRow q (some ns) code i = .ok (scale r n) := by
        unfold quantizedRow; rw [hc]; simp only [ok_bind]; rw [hr]; simp only [ok_bind]; rw [hn]; rfl
      rw [hrow]
      simp only [ok_bind]
      rw [(ih _).mp ⟨cs', rs', sel', hcs, hrs, hsel, rfl⟩]; rfl
    · intro h
      obtain ⟨v, hv, h⟩ := bind_eq_ok.mp h
      obtain ⟨vs, hvs, h⟩ := bind_eq_ok.mp h
      cases h
      obtain ⟨cs', rs', sel', hcs, hrs, hsel, rfl⟩ := (ih _).mpr hvs
      unfold quantizedRow at hv
      obtain ⟨c, hc, hv⟩ := bind_eq_ok.mp hv
      obtain ⟨r, hr, hv⟩ := bind_eq_ok.mp hv
      obtain ⟨n, hn, hv⟩ := bind_eq_ok.mp hv
      cases hv
      refine ⟨c :: cs', r :: rs', n :: sel', ?_, ?_, ?_, rfl⟩
      · rw [hc, hcs]; rfl
      · rw [List.mapM_cons, hr, hrs]; rfl
      · rw [hn, hsel]; rfl

theorem quantizedRows_iff (q : Pq F) (norms : Option (List F)) (code : Nat → Res (List UInt8)) (c : Nat)
    (is : List Nat) (m : Mat F) :
    quantizedRows q norms (fun is => (is.mapM code).map fun rs => (⟨c, rs⟩ : Mat UInt8)) is = .ok m ↔
    m.cols = q.reconstructedLen ∧ is.map (quantizedRow q norms code) = m.rows.map Res.ok := by
  rw [← mapM_eq_ok_iff]
  unfold quantizedRows
  cases norms with
  | none =>
    have e : is.mapM (quantizedRow q none code) = is.mapM fun i => code i >>= q.reconstruct :=
      mapM_congr' fun i _ => quantizedRow_none q code i
    rw [e, ← mapM_bind_mapM]
    dsimp only
    cases is.mapM code with
    | ok cs =>
      simp only [map_ok, ok_bind, reconstructBatch_eq]
      cases cs.mapM q.reconstruct with
      | ok rs =>
        simp only [map_ok, ok_bind, pure_eq, Res.ok.injEq]
        constructor
        · rintro rfl; exact ⟨rfl, rfl⟩
        · rintro ⟨h1, h2⟩; cases m; cases h1; cases h2; rfl
      | err e => simp
      | panic => simp
    | err e => simp
    | panic => simp
  | some ns =>
    rw [← scaled_rows_iff]
    constructor
    · intro h
      obtain ⟨cm, h1, h⟩ := bind_eq_ok.mp h
      obtain ⟨cs, hcs, rfl⟩ := map_eq_ok.mp h1
      obtain ⟨rm, h2, h⟩ := bind_eq_ok.mp h
      rw [reconstructBatch_eq] at h2
      obtain ⟨rs, hrs, rfl⟩ := map_eq_ok.mp h2
      obtain ⟨sel, hsel, h⟩ := bind_eq_ok.mp h
      cases h
      exact ⟨rfl, cs, rs, sel, hcs, hrs, hsel, rfl⟩
    · rintro ⟨hc, cs, rs, sel, hcs, hrs, hsel, hm⟩
      dsimp only
      rw [hcs]; simp only [map_ok, ok_bind, reconstructBatch_eq]
      rw [hrs]; simp only [map_ok, ok_bind]
      rw [hsel]; simp only [ok_bind, scaleRows, pure_eq, Res.ok.injEq]
      cases m; cases hc; cases hm; rfl

theorem noErr_quantizedRow (q : Pq F) (norms : Option (List F)) {code : Nat → Res (List UInt8)}
    (h : ∀ i, NoErr (code i)) (i : Nat) : NoErr (quantizedRow q norms code i) := by
  unfold quantizedRow
  refine noErr_bind (h i) fun c => noErr_bind (noErr_reconstruct q c) fun r => ?_
  cases norms with
  | none => exact noErr_ok _
  | some ns => exact noErr_bind (noErr_unwrap _) fun _ => noErr_ok _

theorem noErr_quantizedRows (q : Pq F) (norms : Option (List F)) {select : List Nat → Res (Mat UInt8)}
    (h : ∀ is, NoErr (select is)) (is : List Nat) : NoErr (quantizedRows q norms select is) := by
  unfold quantizedRows
  refine noErr_bind (h is) fun c => noErr_bind ?_ fun r => ?_
  · rw [reconstructBatch_eq]; exact noErr_map (noErr_mapM (noErr_reconstruct q))
  · cases norms with
    | none => exact noErr_ok _
    | some ns => exact noErr_bind (noErr_mapM fun _ => noErr_unwrap _) fun _ => noErr_ok _

/-- C47 for quantized arrays. -/
theorem c47_quantized (a : QuantizedArray F) : BatchIsRows a := by
  intro is
  have e : a.codes.select = fun is => (is.mapM a.codes.row).map fun rs => ⟨a.codes.cols, rs⟩ :=
    funext (select_eq a.codes)
  constructor
  · intro m
    show quantizedRows a.quantizer a.norms a.codes.select is = _ ↔ _
    rw [e]; exact quantizedRows_iff _ _ _ _ _ _
  · refine noErr_quantizedRows _ _ (fun is => ?_) is
    rw [e]; exact noErr_map (noErr_mapM (noErr_row _))

/-- C47: reconstructing a quantized array gives, for every row, the vector that a single lookup gives; the
shape is the same. -/
theorem c47_reconstruct (a : QuantizedArray F) (h : a.WF) (r : NdArray F) (hr : a.reconstruct = .ok r) :
    shape r = shape a ∧ ∀ i, embedding r i = embedding a i := by
  unfold QuantizedArray.reconstruct at hr
  obtain ⟨m, hm, hr⟩ := bind_eq_ok.mp hr
  rw [reconstructBatch_eq] at hm
  obtain ⟨rs, hrs, rfl⟩ := map_eq_ok.mp hm
  have hlen := mapM_length hrs
  have hcode : ∀ i, a.codes.row i = Res.unwrap a.codes.rows[i]? := fun _ => rfl
  cases hn : a.norms with
  | none =>
    rw [hn] at hr
    cases hr
    refine ⟨?_, fun i => ?_⟩
    · show ((⟨a.quantizer.reconstructedLen, rs⟩ : Mat F).nrows, a.quantizer.reconstructedLen) = _
      simp only [Mat.nrows, hlen]; rfl
    · show Res.unwrap rs[i]? = quantizedRow a.quantizer a.norms a.codes.row i
      rw [hn, quantizedRow_none, hcode]
      cases hc : a.codes.rows[i]? with
      | none =>
        have : rs[i]? = none := by
          rw [List.getElem?_eq_none_iff] at hc ⊢; omega
        rw [this]; rfl
      | some c =>
        obtain ⟨b, hb, hq⟩ := mapM_get hrs hc
        rw [hb]; simp [hq]
  | some ns =>
    rw [hn] at hr
    obtain ⟨_, ha, hr⟩ := bind_eq_ok.mp hr
    cases hr
    have hns := h.norms ns hn
    have hns' : ns.length = a.codes.rows.length := hns
    refine ⟨?_, fun i => ?_⟩
    · show ((rs.zipWith scale ns).length, a.quantizer.reconstructedLen) = (a.codes.rows.length, _)
      rw [List.length_zipWith, hlen, hns', Nat.min_self]
    · show Res.unwrap (rs.zipWith scale ns)[i]? = quantizedRow a.quantizer a.norms a.codes.row i
      rw [hn]
      unfold quantizedRow
      rw [hcode]
      cases hc : a.codes.rows[i]? with
      | none =>
        have : (rs.zipWith scale ns)[i]? = none := by
          rw [List.getElem?_eq_none_iff] at hc ⊢; rw [List.length_zipWith]; omega
        rw [this]; rfl
      | some c =>
        obtain ⟨b, hb, hq⟩ := mapM_get hrs hc
        have hi : i < ns.length := by
          have := (List.getElem?_eq_some_iff.mp hc).1; omega
        rw [List.getElem?_zipWith, hb]
        simp [hq, List.getElem?_eq_getElem hi]

/-- C47: a quantized array can be reconstructed exactly if every one of its rows can be looked up; if not,
the reconstruction panics. -/
theorem c47_reconstruct_total (a : QuantizedArray F) (h : a.WF) :
    ((∃ r, a.reconstruct = .ok r) ↔ ∀ i < (shape a).1, ∃ v, embedding a i = .ok v) ∧
    ((∀ r, a.reconstruct ≠ .ok r) → a.reconstruct = .panic) := by
  constructor
  · constructor
    · rintro ⟨r, hr⟩ i hi
      obtain ⟨hs, hrow⟩ := c47_reconstruct a h r hr
      rw [← hs] at hi
      refine ⟨r.inner.rows[i]'hi, ?_⟩
      rw [← hrow i]
      show Res.unwrap r.inner.rows[i]? = _
      rw [List.getElem?_eq_getElem hi]; rfl
    · intro hall
      have : ∃ rs, a.codes.rows.mapM a.quantizer.reconstruct = .ok rs := by
        refine mapM_ok_of fun c hc => ?_
        obtain ⟨i, hi, rfl⟩ := List.mem_iff_getElem.mp hc
        obtain ⟨v, hv⟩ := hall i hi
        have hv : quantizedRow a.quantizer a.norms a.codes.row i = .ok v := hv
        unfold quantizedRow at hv
        obtain ⟨c, hc, hv⟩ := bind_eq_ok.mp hv
        obtain ⟨r, hr, _⟩ := bind_eq_ok.mp hv
        have hc : Res.unwrap a.codes.rows[i]? = .ok c := hc
        rw [List.getElem?_eq_getElem hi] at hc
        cases hc
        exact ⟨r, hr⟩
      obtain ⟨rs, hrs⟩ := this
      unfold QuantizedArray.reconstruct
      rw [reconstructBatch_eq, hrs]
      simp only [map_ok, ok_bind]
      cases hn : a.norms with
      | none => exact ⟨_, rfl⟩
      | some ns =>
        have hl : ns.length = (⟨a.quantizer.reconstructedLen, rs⟩ : Mat F).nrows := by
          rw [h.norms ns hn]; exact (mapM_length hrs).symm
        simp only [hl, decide_true, Res.assert, if_true, ok_bind]
        exact ⟨_, rfl⟩
  · intro hno
    have hne : NoErr a.reconstruct := by
      unfold QuantizedArray.reconstruct
      refine noErr_bind ?_ fun m => ?_
      · rw [reconstructBatch_eq]; exact noErr_map (noErr_mapM (noErr_reconstruct _))
      · cases a.norms with
        | none => exact noErr_ok _
        | some ns => exact noErr_bind (noErr_assert _) fun _ => noErr_ok _
    cases hr : a.reconstruct with
    | ok r => exact absurd hr (hno r)
    | err e => exact absurd hr (hne e)
    | panic => rfl

/-- Hypotheses of `c47_reconstruct` and `c47_reconstruct_total`: two rows of two codes. -/
example [Scalar F32] := c47_reconstruct_total (F := F32)
  ⟨⟨none, 2, 1, [⟨1, [[1], [2]]⟩, ⟨1, [[3], [4]]⟩]⟩, ⟨2, [[0, 1], [1, 1]]⟩, some [1, 2]⟩
  { pq := { ne := by decide, cent := by decide, sub := by decide, shape := by unfold Mat.WF; decide
            proj := by intro p hp; cases hp }
    codes := by unfold Mat.WF; decide
    cols := rfl
    norms := by rintro _ ⟨⟩; rfl }

/-- Hypotheses of `c47_reconstruct`: two rows of two codes. -/
example [Scalar F32] := c47_reconstruct (F := F32)
  ⟨⟨none, 2, 1, [⟨1, [[1], [2]]⟩, ⟨1, [[3], [4]]⟩]⟩, ⟨2, [[0, 1], [1, 1]]⟩, none⟩
  { pq := { ne := by decide, cent := by decide, sub := by decide, shape := by unfold Mat.WF; decide
            proj := by intro p hp; cases hp }
    codes := by unfold Mat.WF; decide
    cols := rfl
    norms := by intro ns h; cases h } _ rfl

end

theorem noErr_code (a : MmapQuantizedArray) (i : Nat) : NoErr (a.code i) := by
  unfold MmapQuantizedArray.code; split
  · exact noErr_slice _ _ _
  · exact noErr_panic

/-- C47 for memory-mapped quantized arrays. -/
theorem c47_mmap_quantized [Scalar F32] (a : MmapQuantizedArray) : BatchIsRows a := by
  intro is
  constructor
  · intro m
    exact quantizedRows_iff a.quantizer a.norms a.code _ is m
  · exact noErr_quantizedRows _ _ (fun is => noErr_map (noErr_mapM (noErr_code a))) is

/-- C47 for the wrapper types. -/
theorem c47_wrap [Scalar F32] (a : StorageWrap) : BatchIsRows a := by
  cases a with
  | ndArray a => exact c47_array a
  | quantized a => exact c47_quantized a
  | mmapArray a => exact c47_mmap_array a
  | mmapQuantized a => exact c47_mmap_quantized a

/-- C47 for the wrapper types. -/
theorem c47_view_wrap (a : StorageViewWrap) : BatchIsRows a := by
  cases a with
  | ndArray a => exact c47_array a
  | mmapArray a => exact c47_mmap_array a

/-- Specification: the storage built from a row mapping succeeds exactly if it should, and its `i`-th row is
the `mapping[i]`-th row of the original. -/
def MapsRows {S T F : Type} [Storage S F] [Storage T F] [CloneFromMapping S T] (s : S) : Prop :=
  ∀ (mapping : List Nat) (t : T), cloneFromMapping s mapping = .ok t →
    shape t = (mapping.length, (shape s).2) ∧
    (∀ i j, mapping[i]? = some j → embedding t i = embedding s j) ∧
    (∀ i, mapping.length ≤ i → embedding t i = .panic)

/-- C47: row mapping of dense arrays; it succeeds exactly if all indices are in range. -/
theorem c47_clone_array {F : Type} (a : NdArray F) :
    MapsRows a ∧ ∀ mapping, (∃ t : NdArray F, cloneFromMapping a mapping = .ok t) ↔
      ∀ j ∈ mapping, j < (shape a).1 := by
  constructor
  · intro mapping t h
    obtain ⟨m, hm, rfl⟩ := map_eq_ok.mp h
    rw [select_eq] at hm
    obtain ⟨rs, hrs, rfl⟩ := map_eq_ok.mp hm
    have hlen := mapM_length hrs
    refine ⟨?_, fun i j hij => ?_, fun i hi => ?_⟩
    · show (rs.length, a.inner.cols) = (_, _); rw [hlen]; rfl
    · obtain ⟨b, hb, hr⟩ := mapM_get hrs hij
      show Res.unwrap rs[i]? = a.inner.row j
      rw [hb, hr]; rfl
    · show Res.unwrap rs[i]? = _
      rw [List.getElem?_eq_none (by omega)]; rfl
  · intro mapping
    constructor
    · rintro ⟨t, h⟩ j hj
      obtain ⟨m, hm, rfl⟩ := map_eq_ok.mp h
      rw [select_eq] at hm
      obtain ⟨rs, hrs, rfl⟩ := map_eq_ok.mp hm
      obtain ⟨i, hi, rfl⟩ := List.getElem_of_mem hj
      obtain ⟨b, _, hr⟩ := mapM_get hrs (List.getElem?_eq_getElem hi)
      have := unwrap_eq_ok.mp hr
      exact (List.getElem?_eq_some_iff.mp this).1
    · intro h
      have : ∃ rs, mapping.mapM a.inner.row = .ok rs :=
        mapM_ok_of fun j hj => ⟨a.inner.rows[j]'(h j hj), by
          show Res.unwrap a.inner.rows[j]? = _
          rw [List.getElem?_eq_getElem (h j hj)]; rfl⟩
      obtain ⟨rs, hrs⟩ := this
      refine ⟨⟨⟨a.inner.cols, rs⟩⟩, ?_⟩
      show (a.inner.select mapping).map _ = _
      rw [select_eq, hrs]; rfl

/-- C47: row mapping of memory-mapped arrays. -/
theorem c47_clone_mmap_array (a : MmapArray) : MapsRows a := by
  intro mapping t h
  obtain ⟨m, hm, rfl⟩ := map_eq_ok.mp h
  obtain ⟨rs, hrs, rfl⟩ := map_eq_ok.mp hm
  have hlen := mapM_length hrs
  refine ⟨?_, fun i j hij => ?_, fun i hi => ?_⟩
  · show (rs.length, a.cols) = (_, _); rw [hlen]; rfl
  · obtain ⟨b, hb, hr⟩ := mapM_get hrs hij
    show Res.unwrap rs[i]? = a.row j
    rw [hb, hr]; rfl
  · show Res.unwrap rs[i]? = _
    rw [List.getElem?_eq_none (by omega)]; rfl

theorem quantizedRow_mapped {F : Type} [Scalar F] (q : Pq F) {norms norms' : Option (List F)}
    {code code' : Nat → Res (List UInt8)} {i j : Nat} (hc : code' i = code j)
    (hn : ∀ ns', norms' = some ns' → ∃ ns, norms = some ns ∧ ns'[i]? = ns[j]?)
    (hn' : norms' = none → norms = none) :
    quantizedRow q norms' code' i = quantizedRow q norms code j := by
  unfold quantizedRow
  rw [hc]
  cases norms' with
  | none => rw [hn' rfl]
  | some ns' =>
    obtain ⟨ns, rfl, e⟩ := hn ns' rfl
    simp only [e]

theorem quantized_clone_aux {F : Type} [Scalar F] (q : Pq F) (norms norms' : Option (List F))
    (code : Nat → Res (List UInt8)) (mapping : List Nat) (cs : List (List UInt8)) (c : Nat)
    (hcs : mapping.mapM code = .ok cs)
    (hn : selectNorms norms mapping = .ok norms') :
    cs.length = mapping.length ∧
    (∀ i j, mapping[i]? = some j →
      quantizedRow q norms' (⟨c, cs⟩ : Mat UInt8).row i = quantizedRow q norms code j) ∧
    (∀ i, mapping.length ≤ i → quantizedRow q norms' (⟨c, cs⟩ : Mat UInt8).row i = .panic) := by
  have hlen := mapM_length hcs
  refine ⟨hlen, fun i j hij => ?_, fun i hi => ?_⟩
  · obtain ⟨b, hb, hr⟩ := mapM_get hcs hij
    refine quantizedRow_mapped q ?_ ?_ ?_
    · show Res.unwrap cs[i]? = _
      rw [hb, hr]; rfl
    · rintro ns' rfl
      cases norms with
      | none => cases hn
      | some ns =>
        obtain ⟨sel, hsel, he⟩ := map_eq_ok.mp hn
        cases he
        obtain ⟨x, hx, hx'⟩ := mapM_get hsel hij
        exact ⟨ns, rfl, by rw [hx, unwrap_eq_ok.mp hx']⟩
    · rintro rfl
      cases norms with
      | none => rfl
      | some ns =>
        obtain ⟨sel, hsel, he⟩ := map_eq_ok.mp hn
        cases he
  · unfold quantizedRow
    have : (⟨c, cs⟩ : Mat UInt8).row i = .panic := by
      show Res.unwrap cs[i]? = _
      rw [List.getElem?_eq_none (by omega)]; rfl
    rw [this]; rfl

/-- C47: row mapping of quantized arrays keeps the quantizer and maps codes and norms. -/
theorem c47_clone_quantized {F : Type} [Scalar F] (a : QuantizedArray F) : MapsRows a := by
  intro mapping t h
  obtain ⟨codes, hc, h⟩ := bind_eq_ok.mp h
  rw [select_eq] at hc
  obtain ⟨cs, hcs, rfl⟩ := map_eq_ok.mp hc
  obtain ⟨norms', hn, h⟩ := bind_eq_ok.mp h
  cases h
  obtain ⟨h1, h2, h3⟩ := quantized_clone_aux a.quantizer a.norms norms' a.codes.row mapping cs a.codes.cols hcs hn
  exact ⟨Prod.ext h1 rfl, h2, h3⟩

/-- C47: row mapping of memory-mapped quantized arrays. -/
theorem c47_clone_mmap_quantized [Scalar F32] (a : MmapQuantizedArray) : MapsRows a := by
  intro mapping t h
  obtain ⟨codes, hc, h⟩ := bind_eq_ok.mp h
  obtain ⟨cs, hcs, rfl⟩ := map_eq_ok.mp hc
  obtain ⟨norms', hn, h⟩ := bind_eq_ok.mp h
  cases h
  obtain ⟨h1, h2, h3⟩ := quantized_clone_aux a.quantizer a.norms norms' a.code mapping cs
    a.quantizer.quantizedLen hcs hn
  exact ⟨Prod.ext h1 rfl, h2, h3⟩

/-- C47: row mapping of wrapped storages. -/
theorem c47_clone_wrap [Scalar F32] (a : StorageWrap) : MapsRows a := by
  intro mapping t h
  cases a with
  | ndArray a =>
    obtain ⟨t', h', rfl⟩ := map_eq_ok.mp h
    exact (c47_clone_array a).1 mapping t' h'
  | quantized a =>
    obtain ⟨t', h', rfl⟩ := map_eq_ok.mp h
    exact c47_clone_quantized a mapping t' h'
  | mmapArray a =>
    obtain ⟨t', h', rfl⟩ := map_eq_ok.mp h
    exact c47_clone_mmap_array a mapping t' h'
  | mmapQuantized a =>
    obtain ⟨t', h', rfl⟩ := map_eq_ok.mp h
    exact c47_clone_mmap_quantized a mapping t' h'

example : (cloneFromMapping (NdArray.mk (⟨2, [[1, 2], [3, 4], [5, 6]]⟩ : Mat F32)) [2, 0, 2] :
    Res (NdArray F32)) = .ok ⟨⟨2, [[5, 6], [1, 2], [5, 6]]⟩⟩ := rfl

end FF
