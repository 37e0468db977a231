import Verif.Props.MessageText

/-!
# C108 for storages that are mapped: what is said when the file ends too early

Mapping only reads what comes before the matrix. A file that ends within the matrix is mapped without complaint.
-/

namespace FF

open ERd Piece

/-! ## Specification -/

namespace Pieces

/-- What is read of a matrix that is mapped and starts at `pos`. -/
def mappedArray (desc : String) (pos : Nat) : List Piece :=
  [field desc 4, field "Cannot read embedding matrix chunk length" 8,
   field "Cannot read number of rows of the embedding matrix" 8,
   field "Cannot read number of columns of the embedding matrix" 4, field "Cannot read type identifier" 4,
   align (pos + 28)]

/-- What is read of a quantized matrix that is mapped and starts at `pos`. -/
def mappedQuantized (desc : String) (pos : Nat) (a : MmapQuantizedArray) : List Piece :=
  [field desc 4, field "Cannot read quantized embedding matrix chunk length" 8,
   field "Cannot read quantized embedding matrix projection" 4, field "Cannot read quantized embedding matrix norms" 4,
   field "Cannot read quantized embedding length" 4, field "Cannot read reconstructed embedding length" 4,
   field "Cannot read number of subquantizers" 4, field "Cannot read number of quantized embeddings" 8,
   field "Cannot read type identifier" 4, field "Cannot read type identifier" 4, align (pos + 48)] ++
  (a.quantizer.projection.toList.map fun p => field "Cannot read projection matrix" (4 * (p.rows.length * p.cols))) ++
  [field "Cannot read subquantizer" (4 * (a.quantizer.quantizers.length * (a.quantizer.nCentroids * a.quantizer.subDim)))] ++
  (a.norms.toList.map fun ns => field "Cannot read norms" (4 * ns.length))

end Pieces

/-- Specification: the same region of another file. -/
def Mmap.over (f : Bytes) (m : Mmap) : Mmap := ⟨f, m.off, m.len⟩

/-- Specification: the matrix with its region in another file. -/
def MmapArray.over (f : Bytes) (a : MmapArray) : MmapArray := ⟨a.map.over f, a.nRows, a.cols⟩

/-- Specification: the quantized matrix with its region in another file. -/
def MmapQuantizedArray.over (f : Bytes) (a : MmapQuantizedArray) : MmapQuantizedArray :=
  ⟨a.quantizer, a.codes.over f, a.norms⟩

/-- Specification: the storage with its region in another file. -/
def StorageWrap.over (f : Bytes) : StorageWrap → StorageWrap
  | .mmapArray a => .mmapArray (a.over f)
  | .mmapQuantized a => .mmapQuantized (a.over f)
  | a => a

/-- Specification: the storage with a view with its region in another file. -/
def StorageViewWrap.over (f : Bytes) : StorageViewWrap → StorageViewWrap
  | .mmapArray a => .mmapArray (a.over f)
  | a => a

/-- Specification: like `SaysWhere`, for readers that map the last part: it is the region `map`, which begins behind the pieces
and need not be there. -/
def SaysWhereMapped {α : Type} (m : ERd α) (r : Rd α) (over : Bytes → α → α) (L : Nat → α → List Piece → Mmap → Prop) : Prop :=
  (∀ d pos, (m d pos).kinds = r d pos) ∧
  ∀ d pos a q, r d pos = .ok (a, q) → ∃ ps map, L pos a ps map ∧ map = ⟨d, pos + total ps, map.len⟩ ∧
    q = pos + total ps + map.len ∧
    ∀ c, m (d.take c) pos = match missing ps (c - pos) with
      | some e => .err e
      | none => .ok (over (d.take c) a, q)

/-! ## Proofs -/

/-- What `m`, which maps its last part, does with the first part of data that it accepts. -/
def ERd.TellsMapped {α : Type} (m : ERd α) (over : Bytes → α → α) (L : Nat → α → List Piece → Mmap → Prop) : Prop :=
  ∀ d pos a q, m d pos = .ok (a, q) → ∃ ps map, L pos a ps map ∧ map = ⟨d, pos + total ps, map.len⟩ ∧
    q = pos + total ps + map.len ∧
    ∀ c, m (d.take c) pos = match missing ps (c - pos) with
      | some e => .err e
      | none => .ok (over (d.take c) a, q)

theorem SaysWhereMapped.of {α : Type} {m : ERd α} {r : Rd α} {over : Bytes → α → α} {L : Nat → α → List Piece → Mmap → Prop}
    (hk : KindOf m r) (ht : m.TellsMapped over L) : SaysWhereMapped m r over L :=
  ⟨hk, fun d pos a q h => ht d pos a q (ok_of_kinds ((hk d pos).trans h))⟩

theorem ERd.TellsMapped.imp {α : Type} {m : ERd α} {over : Bytes → α → α} {L M : Nat → α → List Piece → Mmap → Prop}
    (h : m.TellsMapped over L) (hi : ∀ pos a ps x, L pos a ps x → M pos a ps x) : m.TellsMapped over M := by
  intro d pos a q hm
  obtain ⟨ps, x, h1, h2⟩ := h d pos a q hm
  exact ⟨ps, x, hi _ _ _ _ h1, h2⟩

theorem ERd.TellsMapped.map {α β : Type} {m : ERd α} {over : Bytes → α → α} {L : Nat → α → List Piece → Mmap → Prop}
    (h : m.TellsMapped over L) (f : α → β) (over' : Bytes → β → β) (hf : ∀ x a, over' x (f a) = f (over x a)) :
    (m >>= fun a => (Pure.pure (f a) : ERd β)).TellsMapped over' fun pos b ps x => ∃ a, b = f a ∧ L pos a ps x := by
  intro d pos b q hm
  rw [ERd.bind_apply] at hm
  cases hr : m d pos with
  | err e => rw [hr] at hm; cases hm
  | panic => rw [hr] at hm; cases hm
  | ok r =>
    rw [hr] at hm
    cases hm
    obtain ⟨ps, x, h1, h2, h3, h4⟩ := h d pos r.1 r.2 hr
    refine ⟨ps, x, ⟨_, rfl, h1⟩, h2, h3, fun c => ?_⟩
    rw [ERd.bind_apply, h4 c]
    cases missing ps (c - pos) with
    | some e => rfl
    | none => show ERes.ok _ = ERes.ok _; rw [hf]

/-- A region that is mapped after something was read. -/
theorem ERd.Tells.mapped {α β : Type} {m : ERd α} {L : Nat → α → List Piece → Prop} (h : m.Tells L) (n : α → Nat)
    (desc : String) (f : α → Mmap → β) (over : Bytes → β → β) (hf : ∀ x a map, over x (f a map) = f a (map.over x)) :
    (m >>= fun a => quiet (Rd.lift (Res.assert (decide (n a ≤ usizeMax)))) >>= fun _ =>
      reading desc (mapRegion (n a)) >>= fun map => (Pure.pure (f a map) : ERd β)).TellsMapped over
    fun pos b ps x => ∃ a, b = f a x ∧ x.len = n a ∧ L pos a ps := by
  intro d pos b q hm
  rw [ERd.bind_apply] at hm
  cases hr : m d pos with
  | err e => rw [hr] at hm; cases hm
  | panic => rw [hr] at hm; cases hm
  | ok r =>
    rw [hr] at hm
    obtain ⟨a, p⟩ := r
    have key : ∀ d', (quiet (Rd.lift (Res.assert (decide (n a ≤ usizeMax)))) >>= fun _ =>
        reading desc (mapRegion (n a)) >>= fun map => (Pure.pure (f a map) : ERd β)) d' p =
        if n a ≤ usizeMax then (if n a ≤ isizeMax then .ok (f a ⟨d', p, n a⟩, p + n a) else .err (.read desc)) else .panic := by
      intro d'
      rw [ERd.bind_apply]
      by_cases h1 : n a ≤ usizeMax
      · rw [if_pos h1, decide_eq_true h1]
        show (reading desc (mapRegion (n a)) >>= fun map => (Pure.pure (f a map) : ERd β)) d' p = _
        rw [ERd.bind_apply]
        unfold reading named mapRegion
        by_cases h2 : n a ≤ isizeMax
        · rw [if_pos h2, if_pos h2]; rfl
        · rw [if_neg h2, if_neg h2]; rfl
      · rw [if_neg h1, decide_eq_false h1]; rfl
    replace hm := (key d).symm.trans hm
    have h1 : n a ≤ usizeMax := by
      by_cases h1 : n a ≤ usizeMax
      · exact h1
      · rw [if_neg h1] at hm; cases hm
    have h2 : n a ≤ isizeMax := by
      rw [if_pos h1] at hm
      by_cases h2 : n a ≤ isizeMax
      · exact h2
      · rw [if_neg h2] at hm; cases hm
    rw [if_pos h1, if_pos h2] at hm
    cases hm
    obtain ⟨ps, hL, h3, h4⟩ := h d pos _ hr
    simp only at h3 hL h4
    refine ⟨ps, ⟨d, p, n a⟩, ⟨a, rfl, rfl, hL⟩, by rw [← h3], by rw [← h3], fun c => ?_⟩
    rw [ERd.bind_apply, h4 c]
    cases missing ps (c - pos) with
    | some e => rfl
    | none =>
      refine (key (d.take c)).trans ?_
      rw [if_pos h1, if_pos h2]
      show _ = ERes.ok _
      rw [hf]
      rfl

theorem ERd.TellsMapped.peek {β : Type} {desc : String} {f : ChunkId → ERd β} {over : Bytes → β → β}
    {M : ChunkId → Nat → β → List Piece → Mmap → Prop} (hf : ∀ i, (f i).TellsMapped over (M i))
    (hM : ∀ i pos b ps x, M i pos b ps x → ∃ e qs, ps = .field e 4 :: qs) :
    (peekChunkId desc >>= f).TellsMapped over fun pos b ps x => ∃ i e qs, M i pos b (.field e 4 :: qs) x ∧
      ps = .field (.read desc) 4 :: qs := by
  intro d pos b q hr
  rw [ERd.bind_apply] at hr
  unfold peekChunkId at hr
  cases hm : readChunkId desc d pos with
  | err e => rw [hm] at hr; cases hr
  | panic => rw [hm] at hr; cases hr
  | ok a =>
    rw [hm] at hr
    replace hr : f a.1 d pos = .ok (b, q) := hr
    obtain ⟨_, rfl, h1, h2⟩ := Tells.chunkId desc d pos a hm
    obtain ⟨ps, x, hL, h3, h4, h5⟩ := hf a.1 d pos b q hr
    obtain ⟨e, qs, rfl⟩ := hM _ _ _ _ _ hL
    refine ⟨_, x, ⟨a.1, e, qs, hL, rfl⟩, h3, h4, fun c => ?_⟩
    rw [ERd.bind_apply]
    unfold peekChunkId
    rw [h2 c]
    simp only [missing]
    by_cases hc : c - pos < 4
    · simp only [if_pos hc]; rfl
    · simp only [if_neg hc]
      show f a.1 (d.take c) pos = _
      rw [h5 c]
      simp only [missing, if_neg hc]

theorem tellsMapped_fail {β : Type} (e : Error) (over : Bytes → β → β) :
    (ERd.fail e : ERd β).TellsMapped over fun _ _ _ _ => False := by
  intro d pos a q h; cases h

theorem tellsMapped_array : ERd.mmapNdArray.TellsMapped MmapArray.over fun pos a ps x =>
    a.map = x ∧ x.len = 4 * (a.nRows * a.cols) ∧ ps = Pieces.mappedArray "Cannot read chunk identifier" pos := by
  refine (tells_arrayHead.mapped (fun rc => rc.1 * rc.2 * 4) _ (fun rc map => (⟨map, rc.1, rc.2⟩ : MmapArray)) _
    fun x a map => rfl).imp ?_
  rintro pos a ps x ⟨rc, rfl, hn, rfl⟩
  exact ⟨rfl, by rw [hn]; exact Nat.mul_comm _ _, rfl⟩

theorem tells_quantizedHead : ERd.readQuantizedHead.Tells fun pos r ps =>
    ps = Pieces.mappedQuantized "Cannot read chunk identifier" pos ⟨r.1.quantizer, ⟨[], 0, 0⟩, r.2⟩ := by
  refine ((Tells.ensureChunkType .quantizedArray).bind fun _ =>
    (Tells.u64 "Cannot read quantized embedding matrix chunk length").bind fun _ =>
    tells_pq.bind fun r => (tells_quantizedNorms r.readNorms r.nEmbeddings).bind fun ns => Tells.pure (r, ns)).imp ?_
  rintro pos a ps ⟨_, _, _, rfl, rfl, _, _, _, rfl, ⟨_, rfl⟩, r, _, _, rfl, rfl, ns, _, _, rfl, rfl, rfl, rfl⟩
  simp only [total, len, List.map_cons, List.map_nil, List.sum_cons, List.sum_nil, Nat.add_zero, Nat.add_assoc,
    List.append_nil, List.append_assoc, Pieces.mappedQuantized]
  rfl

theorem tellsMapped_quantized : ERd.mmapQuantizedArray.TellsMapped MmapQuantizedArray.over fun pos a ps x =>
    a.codes = x ∧ (∃ n, x.len = n * a.quantizer.quantizedLen) ∧
      ps = Pieces.mappedQuantized "Cannot read chunk identifier" pos a := by
  refine (tells_quantizedHead.mapped (fun r => r.1.nEmbeddings * r.1.quantizer.quantizedLen) _
    (fun r map => (⟨r.1.quantizer, map, r.2⟩ : MmapQuantizedArray)) _ fun x a map => rfl).imp ?_
  rintro pos a ps x ⟨r, rfl, hn, rfl⟩
  exact ⟨rfl, ⟨_, hn⟩, rfl⟩

/-- Specification: what is read of a storage that is mapped, and its region. -/
def MappedStorage (desc : String) (pos : Nat) (a : StorageWrap) (ps : List Piece) (x : Mmap) : Prop :=
  (∃ b, a = .mmapArray b ∧ b.map = x ∧ x.len = 4 * (b.nRows * b.cols) ∧ ps = Pieces.mappedArray desc pos) ∨
  (∃ b, a = .mmapQuantized b ∧ b.codes = x ∧ (∃ n, x.len = n * b.quantizer.quantizedLen) ∧
    ps = Pieces.mappedQuantized desc pos b)

theorem tellsMapped_storage : ERd.mmapStorageWrap.TellsMapped StorageWrap.over
    (MappedStorage "Cannot read storage chunk identifier") := by
  refine (TellsMapped.peek (M := fun _ => MappedStorage "Cannot read chunk identifier") ?_ ?_).imp ?_
  · intro i
    cases i
    case ndArray =>
      refine (tellsMapped_array.map StorageWrap.mmapArray _ fun _ _ => rfl).imp ?_
      rintro pos v ps x ⟨a, rfl, h⟩; exact .inl ⟨a, rfl, h⟩
    case quantizedArray =>
      refine (tellsMapped_quantized.map StorageWrap.mmapQuantized _ fun _ _ => rfl).imp ?_
      rintro pos v ps x ⟨a, rfl, h⟩; exact .inr ⟨a, rfl, h⟩
    all_goals exact (tellsMapped_fail _ _).imp fun _ _ _ _ h => h.elim
  · rintro i pos v ps x (⟨a, rfl, _, _, rfl⟩ | ⟨a, rfl, _, _, rfl⟩)
    · exact ⟨_, _, rfl⟩
    · exact ⟨_, _, rfl⟩
  · rintro pos v ps x ⟨i, e, qs, ⟨a, rfl, h1, h2, h3⟩ | ⟨a, rfl, h1, h2, h3⟩, rfl⟩
    · cases h3; exact .inl ⟨a, rfl, h1, h2, rfl⟩
    · cases h3; exact .inr ⟨a, rfl, h1, h2, rfl⟩

theorem tellsMapped_storageView : ERd.mmapStorageViewWrap.TellsMapped StorageViewWrap.over fun pos a ps x =>
    ∃ b, a = .mmapArray b ∧ b.map = x ∧ x.len = 4 * (b.nRows * b.cols) ∧
      ps = Pieces.mappedArray "Cannot read storage chunk identifier" pos := by
  refine (TellsMapped.peek (M := fun _ pos a ps x => ∃ b, a = .mmapArray b ∧ b.map = x ∧ x.len = 4 * (b.nRows * b.cols) ∧
      ps = Pieces.mappedArray "Cannot read chunk identifier" pos) ?_ ?_).imp ?_
  · intro i
    cases i
    case ndArray => exact tellsMapped_array.map StorageViewWrap.mmapArray _ fun _ _ => rfl
    all_goals exact (tellsMapped_fail _ _).imp fun _ _ _ _ h => h.elim
  · rintro i pos v ps x ⟨a, rfl, _, _, rfl⟩
    exact ⟨_, _, rfl⟩
  · rintro pos v ps x ⟨i, e, qs, ⟨a, rfl, h1, h2, h3⟩, rfl⟩
    cases h3; exact ⟨a, rfl, h1, h2, rfl⟩

/-! ## C108 -/

/-- C108, matrices that are mapped. -/
theorem c108_mmap_array : SaysWhereMapped ERd.mmapNdArray FF.mmapNdArray MmapArray.over fun pos a ps x =>
    a.map = x ∧ x.len = 4 * (a.nRows * a.cols) ∧ ps = Pieces.mappedArray "Cannot read chunk identifier" pos :=
  .of kindOf_mmapArray tellsMapped_array

/-- C108, quantized matrices that are mapped. -/
theorem c108_mmap_quantized : SaysWhereMapped ERd.mmapQuantizedArray FF.mmapQuantizedArray MmapQuantizedArray.over
    fun pos a ps x => a.codes = x ∧ (∃ n, x.len = n * a.quantizer.quantizedLen) ∧
      ps = Pieces.mappedQuantized "Cannot read chunk identifier" pos a :=
  .of kindOf_mmapQuantized tellsMapped_quantized

/-- C108, storages of any kind that are mapped. -/
theorem c108_mmap_storage : SaysWhereMapped ERd.mmapStorageWrap FF.mmapStorageWrap StorageWrap.over
    (MappedStorage "Cannot read storage chunk identifier") := .of kindOf_mmapStorage tellsMapped_storage

/-- C108, storages with a view that are mapped. -/
theorem c108_mmap_storage_view : SaysWhereMapped ERd.mmapStorageViewWrap FF.mmapStorageViewWrap StorageViewWrap.over
    fun pos a ps x => ∃ b, a = .mmapArray b ∧ b.map = x ∧ x.len = 4 * (b.nRows * b.cols) ∧
      ps = Pieces.mappedArray "Cannot read storage chunk identifier" pos :=
  .of kindOf_mmapStorageView tellsMapped_storageView

/-- C108, files of which the storage is mapped: the errors are those of the model without messages, and of a beginning of an
accepted file the reader says which field before the region is incomplete; if none is, the file is accepted, with the region
over the file that is there, and with the norms if they are complete. -/
theorem c108_mmap_file {T V S : Type} [ErrorText] [Toml T] [ReadChunk V] {mv : ERd V} {ms : ERd S} {rs : Rd S}
    {over : Bytes → S → S} {LV : Nat → V → List Piece → Prop} {LS : Nat → S → List Piece → Mmap → Prop}
    (hv : SaysWhere mv (readChunk : Rd V) LV) (hs : SaysWhereMapped ms rs over LS) :
    (∀ d pos, (readEmbeddings mv ms d pos : ERes (Embeddings T V S F32)).kinds = Embeddings.mmap rs d pos) ∧
    ∀ (d : Bytes) (pos : Nat) (e : Embeddings T V S F32), Embeddings.mmap rs d pos = .ok e →
      ∃ p1 p2 p3 n x, 1 ≤ n ∧ ((e.metadata = none ∧ p1 = Pieces.header n) ∨
        ∃ t text, e.metadata = some ⟨t⟩ ∧ Toml.parse text = some t ∧
          p1 = Pieces.header n ++ Pieces.metadata (utf8 text).length) ∧
      LV (pos + total p1) e.vocab p2 ∧ LS (pos + total p1 + total p2) e.storage p3 x ∧
      x = ⟨d, pos + total (p1 ++ p2 ++ p3), x.len⟩ ∧
      ∀ c, readEmbeddings mv ms (d.take c) pos = match missing (p1 ++ p2 ++ p3) (c - pos) with
        | some x => .err x
        | none => .ok { e with
            storage := over (d.take c) e.storage
            norms := normsLeft (pos + total (p1 ++ p2 ++ p3) + x.len) c e.norms } := by
  have hk : ∀ d pos, (readEmbeddings mv ms d pos : ERes (Embeddings T V S F32)).kinds = Embeddings.mmap rs d pos := by
    intro d pos
    have h1 : KindOf (readHead mv) (Embeddings.readHead : Rd (Option (Metadata T) × V)) :=
      kindOf_optMetadata.bind fun m => KindOf.bind hv.1 fun v => .pure _
    have e1 := h1 d pos
    unfold readEmbeddings Embeddings.mmap Embeddings.readWith
    rw [← e1]
    cases (readHead mv d pos : ERes ((Option (Metadata T) × V) × Nat)) with
    | err x => rfl
    | panic => rfl
    | ok r =>
      obtain ⟨⟨m, v⟩, p⟩ := r
      show ERes.kinds (ERes.bind (ms d p) _) = Res.bind (rs d p) _
      rw [← hs.1 d p]
      cases ms d p with
      | err x => rfl
      | panic => rfl
      | ok r =>
        obtain ⟨s, q⟩ := r
        show ERes.kinds (ERes.bind (orNone (ERd.readNorms d q)) _) = Res.bind (Embeddings.orNone (FF.readNorms d q)) _
        rw [← kindOf_norms d q]
        cases ERd.readNorms d q <;> rfl
  refine ⟨hk, fun d pos e he => ?_⟩
  unfold Embeddings.mmap Embeddings.readWith at he
  obtain ⟨⟨⟨m, v⟩, p⟩, h1, he⟩ := Res.bind_eq_ok.mp he
  obtain ⟨⟨s, q⟩, h2, he⟩ := Res.bind_eq_ok.mp he
  obtain ⟨n, h3, he⟩ := Res.bind_eq_ok.mp he
  unfold Embeddings.readHead at h1
  obtain ⟨m', p', h4, h1⟩ := Rd.bind_ok.mp h1
  obtain ⟨v', p'', h5, h1⟩ := Rd.bind_ok.mp h1
  cases h1
  obtain ⟨pm, ⟨k, hk1, hm⟩, e1, c1⟩ := tells_optMetadata d pos _ (ok_of_kinds ((kindOf_optMetadata d pos).trans h4))
  obtain ⟨pv, hLV, e2, c2⟩ := hv.2 _ _ _ _ h5
  obtain ⟨ps, x, hLS, hx, e3, c3⟩ := hs.2 _ _ _ _ h2
  cases he
  simp only at e1
  have eq' : p + total ps = pos + total (pm ++ pv ++ ps) := by rw [total_append, total_append]; omega
  refine ⟨pm, pv, ps, k, x, hk1, ?_, e1 ▸ hLV, ?_, ?_, fun c => ?_⟩
  · exact hm
  · rw [← e1, ← e2]; exact hLS
  · rw [← eq']; exact hx
  · have eq : q = pos + total (pm ++ pv ++ ps) + x.len := by omega
    unfold readEmbeddings readHead
    rw [ERd.bind_apply, c1 c, missing_append, missing_append]
    cases missing pm (c - pos) with
    | some x => rfl
    | none =>
      simp only [ERes.bind, ERd.bind_apply, c2 c, Option.none_or]
      rw [show c - pos - total pm = c - p' by omega]
      cases missing pv (c - p') with
      | some x => rfl
      | none =>
        simp only [ERd.pure_apply, c3 c, Option.none_or]
        rw [total_append, show c - pos - (total pm + total pv) = c - p by omega]
        cases missing ps (c - p) with
        | some x => rfl
        | none =>
          have key : orNone (ERd.readNorms (d.take c) q) = .ok ((normsLeft q c (n.map (·.1))).map fun x => (x, (n.map (·.2)).getD 0)) := by
            cases hn : n with
            | none =>
              rw [hn] at h3
              have hne : ∃ x, (readChunk : Rd (NdNorms F32)) d q = .err x := by
                cases hh : (readChunk : Rd (NdNorms F32)) d q with
                | ok a => rw [hh] at h3; cases h3
                | err x => exact ⟨x, rfl⟩
                | panic => rw [hh] at h3; cases h3
              obtain ⟨x, hx⟩ := hne
              have hmono := readNorms_mono.mono (d.take c) (d.drop c) q
              rw [List.take_append_drop] at hmono
              have : ∃ y, FF.readNorms (d.take c) q = .err y := by
                rcases hmono with h | h
                · exact ⟨_, h⟩
                · exact ⟨x, h.symm.trans hx⟩
              obtain ⟨y, hy⟩ := this
              rw [← kindOf_norms] at hy
              cases hz : ERd.readNorms (d.take c) q with
              | ok a => rw [hz] at hy; cases hy
              | err e => rfl
              | panic => rw [hz] at hy; cases hy
            | some n' =>
              rw [hn] at h3
              have hok : (readChunk : Rd (NdNorms F32)) d q = .ok n' := by
                cases hh : (readChunk : Rd (NdNorms F32)) d q with
                | ok a => rw [hh] at h3; cases h3; rfl
                | err x => rw [hh] at h3; cases h3
                | panic => rw [hh] at h3; cases h3
              obtain ⟨_, rfl, e4, c4⟩ := c108_norms.2 _ _ _ _ hok
              rw [c4 c]
              simp only [normsLeft, Option.map_some]
              cases missing (Pieces.norms q n'.1) (c - q) <;> simp [orNone]
          show ERes.bind (orNone (ERd.readNorms (d.take c) q)) _ = _
          rw [key, ← eq]
          simp only [ERes.bind]
          cases n with
          | none => rfl
          | some n' =>
            simp only [normsLeft, Option.map_some]
            split <;> rfl

/-! ## Examples -/

/-- A matrix and a quantized matrix that are mapped: the hypotheses of C108. -/
example : FF.mmapNdArray exampleFile 51 = .ok (⟨⟨exampleFile, 80, 8⟩, 2, 1⟩, 88) ∧
    (FF.mmapQuantizedArray (writeChunk exampleQuantized 0).bytes 0).map (·.2) = .ok 166 ∧
    (FF.mmapStorageWrap exampleFile 51).map (·.2) = .ok 88 ∧
    (FF.mmapStorageWrap (writeChunk exampleQuantized 0).bytes 0).map (·.2) = .ok 166 ∧
    (FF.mmapStorageViewWrap exampleFile 51).map (·.2) = .ok 88 := by
  decide +kernel

/-- What is said of files that end before the matrix, and none of a file that ends within the matrix. -/
example : ERd.mmapNdArray (exampleFile.take 70) 51 = .err (.read "Cannot read number of rows of the embedding matrix") ∧
    ERd.mmapNdArray (exampleFile.take 85) 51 = .ok (⟨⟨exampleFile.take 85, 80, 8⟩, 2, 1⟩, 88) := by
  decide +kernel

/-- The file of the examples is accepted with its matrix mapped: the hypothesis of `c108_mmap_file`. -/
example : ((@Embeddings.mmap _ SimpleVocab MmapArray exampleToml _ FF.mmapNdArray exampleFile 0).map fun e =>
    e.storage.nRows) = .ok 2 := by
  decide +kernel
example := (@c108_mmap_file _ SimpleVocab MmapArray exampleErrorText exampleToml _ _ _ _ _ _ _
  (@c108_simple exampleErrorText) c108_mmap_array)

end FF
