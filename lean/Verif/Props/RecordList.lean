import Verif.Proof.RecordListPoint
import Verif.Props.Reader
import Verif.Props.TraceList
import Verif.Model.PathRange
/-!
# C117: the record lists of segments unpack to the samples of the records
-/
namespace Verif.Props.RecordList
open Verif.Model Verif.Model.Bytes Verif.Model.Steim Verif.Model.Samples Verif.Model.Mem Verif.Model.Record3
  Verif.Model.RecordList
open Verif.Proof.Mem Verif.Proof.RecordList Verif.Props.Reader
open Verif.Props.Samples (typeCode)
open Verif.Model.Trace (Arrival Seg Source)
open Verif.Model.TraceList (TraceList)
open Verif.Props.Trace (Linked segAt)
open Verif.Props.TraceList (Listed)
open Verif.Model.ReadTrace (typeOf)

/-! ## The samples -/

/-- The output has room for the samples: as many bytes as given, or in the segment, which has no samples yet. -/
def Room (stored : Bool) (output : Option Nat) (n : Nat) : Prop :=
  (∃ size, output = some size ∧ n ≤ size) ∨ (output = none ∧ stored = false)

/-- **C117 (partial).**  `mstl3_unpack_recordlist` of a list whose entries point to records of one sample type, in buffers or in files,
with room for the samples: the samples of the records as told by `msr3_unpack_data` one after the other, their number is
returned, and the type is set.  The first record has samples.  Missing: what is violated below. -/
theorem C117_unpacked_partial (h : Bool) (fb : Int × Nat → Nat) (files : List UInt8 → Option (List UInt8))
    (x : Pointer × Samples) (l : List (Pointer × Samples)) (he : ∀ y ∈ x :: l, Entry h files y)
    (hx : 0 < x.1.msr.samplecnt) (ht : ∀ y ∈ l, 0 < y.1.msr.samplecnt → typeCode y.2 = typeCode x.2)
    (samplecnt : Int) (hn : samplecnt = ((x :: l).map fun y => y.1.msr.samplecnt).sum)
    (h64 : samplecnt * sampleSize (typeCode x.2) < 2 ^ 64) (stored : Bool) (output : Option Nat)
    (ho : Room stored output (samplecnt * sampleSize (typeCode x.2)).toNat) :
    unpackRecordlist h fb files samplecnt stored output ((x :: l).map Prod.fst) =
      .ok { count := samplecnt.toNat, data := (x :: l).flatMap fun y => values fb y.2,
            sampletype := some (typeCode x.2) } := by
  have hpx : Points h files x.1 x.2 := by
    rcases he x (by simp) with ⟨h0, -⟩ | ⟨-, hp⟩
    · omega
    · exact hp
  obtain ⟨sz, h1, h2, h3, h4⟩ := decode_points hpx hx
  have hsz : sampleSize (typeCode x.2) = sz := ((Props.Samples.C54_lookups_consistent _).1 _ _ h1).1
  rw [hsz] at h64 ho
  have hnn : ∀ y ∈ x :: l, 0 ≤ y.1.msr.samplecnt := by
    intro y hy
    rcases he y hy with ⟨h0, -⟩ | ⟨h0, -⟩ <;> omega
  rw [sum_counts _ hnn] at hn
  generalize hN : ((x :: l).map fun y => y.1.msr.samplecnt.toNat).sum = N at hn
  subst hn
  have hpos : 0 < N := by
    rw [← hN, List.map_cons, List.sum_cons]
    omega
  have hds : bits 64 ((N : Int) * sz) = N * sz := by
    have e : (N : Int) * sz = ((N * sz : Nat) : Int) := by simp
    rw [e] at h64 ⊢
    unfold bits
    omega
  have hto : ((N : Int) * sz).toNat = N * sz := by
    have e : (N : Int) * sz = ((N * sz : Nat) : Int) := by simp
    rw [e]
    rfl
  rw [hto] at ho
  have h64' : N * sz < 2 ^ 64 := by
    have e : (N : Int) * sz = ((N * sz : Nat) : Int) := by simp
    rw [e] at h64
    omega
  have href : refuses stored output (N * sz) = false := by
    unfold refuses
    rcases ho with ⟨size, e, hs⟩ | ⟨e, hs⟩
    · rw [e]; simp only [decide_eq_false_iff_not]; omega
    · rw [e]; exact hs
  have hty : ∀ y ∈ x :: l, 0 < y.1.msr.samplecnt → typeCode y.2 = typeCode x.2 := by
    intro y hy hc
    rcases List.mem_cons.1 hy with rfl | hy
    · rfl
    · exact ht y hy hc
  have hloop := loop_entries (h := h) (files := files) (decodedsize := N * sz) h1 h64' (x :: l) 0 he hty (by rw [hN]; omega)
  obtain ⟨c1, c2⟩ := counts (x :: l) he
  rw [List.map_cons] at hloop ⊢
  rw [unpackRecordlist, h1]
  simp only
  rw [hds, href, if_neg (by simp), hloop, bind_ok, c1, hN, if_pos hpos]
  have hfun : (fun s => (typeOf fb s).2) = values fb := funext (typeOf_values fb)
  rw [hfun, c2]
  rfl

/-! ## Where readers make the entries point to -/

/-- The bytes of a record of version 3 without NUL in its identifier, on a little-endian host, or of one of version 2 with a
blockette 1000 and with data in the byte order of its header unless that is the order of the host. -/
def Plainly (h : Bool) (b : List UInt8) : Prop :=
  (h = false ∧ ∃ r : Spec.Record3.Rec, r.Valid ∧ (∀ c ∈ r.sid, c ≠ 0) ∧ b = r.bytes ∧ b.length ≤ 10485760) ∨
  ∃ r : Spec.Record2.Rec, r.Valid ∧ (r.be = h ∨ ¬ Record2.Ambiguous r) ∧ ¬ Record2.Reserved r ∧
    (r.last Spec.Record2.Blkt.data?).isSome ∧ (r.be = h ∨ r.dataBE = r.be) ∧ b = r.bytes

/-- **C117 (partial).**  The entries that `mstl3_readbuffer` makes for records in a buffer, and `ms3_readtracelist` for records in a
file, with or without samples, point to the records: what is found there decodes to the samples `msr3_unpack_data` tells. -/
theorem C117_pointers_partial {env : Model.Record2.Env} {h vc ud : Bool} {b : List UInt8} {m m' : Msr} {s : Samples} {a : Nat}
    (hb : Plainly h b) (ha : Alone env h vc b m) (hf : Full env h vc ud b m m') (hc : 0 < m.samplecnt)
    (hu : unpackData h a m b = .ok s) (files : List UInt8 → Option (List UInt8)) (pre t t' : List UInt8) (off size : Nat)
    (hd : dataBounds h m' (b ++ t) = .ok (off, size)) :
    Points h files (bufferPointer (pre ++ (b ++ t)) pre.length m' off) s ∧
    ∀ path, files path = some (pre ++ (b ++ t')) →
      Points h files (filePointer path (pre.length + b.length) m' off) s := by
  have key : Plain m b ∧ Proof.Reader.Piece env h vc false b m m := by
    rcases hb with ⟨rfl, r, v, text, rfl, hl⟩ | ⟨r, v, ho, hr, hdt, hs, rfl⟩
    · exact plain3 v text hl ha
    · exact plain2 v (Props.Record2.told ho) (Props.Record2.not_reserved hr) hdt hs ha
  obtain ⟨hp, hpc⟩ := key
  have hm := full_same hpc hf hp.encoding.1
  have hlen : m'.reclen = b.length := by rw [hm]; exact hp.reclen.symm
  constructor
  · refine points hp hm hc hu hd ?_ rfl rfl
    show ∃ t', (pre ++ (b ++ t)).drop pre.length = b ++ t'
    exact ⟨t, by rw [List.drop_left]⟩
  · intro path hfile
    refine points hp hm hc hu hd ?_ rfl rfl
    show ∃ a t, files path = some (a ++ (b ++ t)) ∧ ((pre.length : Int) + b.length) - m'.reclen = (a.length : Nat)
    exact ⟨pre, t', hfile, by rw [hlen]; omega⟩

/-! ## Segments of trace lists -/

/-- **C117 (partial).**  The segments of a trace list built with record lists: if the entry made for each record points to it, the
record list of each segment unpacks to the samples of its records in order, as many as the segment says, and to what the segment has
stored if it was built from the samples. -/
theorem C117_segments_partial {R : Type} [BEq R] {sim : R → R → Bool} {split autoheal : Bool} {hist : List (Arrival R × Bool)} {tl : TraceList R}
    (hl : Listed sim split autoheal true hist tl) (hv : split = true → ∀ y ∈ hist, y.1.pub ≠ 0)
    (h : Bool) (fb : Int × Nat → Nat) (files : List UInt8 → Option (List UInt8))
    (ptr : Arrival R → Pointer) (smp : Arrival R → Samples) (T : List UInt8 → Char)
    (hp : ∀ y ∈ hist, 0 < y.1.samplecnt ∧ (ptr y.1).msr.samplecnt = y.1.samplecnt ∧ Points h files (ptr y.1) (smp y.1) ∧
      typeCode (smp y.1) = T y.1.sid) :
    ∀ a s, tl.sources a = some s → ∃ l, Linked s l ∧ ∀ i ∈ l, ∃ seg, segAt s i = some seg ∧ seg.records ≠ [] ∧
      ((∀ y ∈ hist, y.1.data = values fb (smp y.1)) → (seg.records.flatMap fun r => values fb (smp r)) = seg.data) ∧
      ∀ stored output, seg.samplecnt * sampleSize (T s.sid) < 2 ^ 64 →
        Room stored output (seg.samplecnt * sampleSize (T s.sid)).toNat →
        unpackRecordlist h fb files seg.samplecnt stored output (seg.records.map ptr) =
          .ok { count := seg.samplecnt.toNat, data := seg.records.flatMap fun r => values fb (smp r),
                sampletype := some (T s.sid) } := by
  intro a s hs
  have hr := (Props.TraceList.C69_sources_independent_partial hl hv).1 a s hs
  obtain ⟨l, chain, added, h1, h2, h3, -, h5⟩ := Props.Trace.C67_segments_are_chains hr
  have hmem : ∀ i ∈ l, ∀ r ∈ chain i, ∃ y ∈ hist, y.1 = r ∧ r.sid = s.sid := by
    intro i hi r hrc
    have k1 : r ∈ l.flatMap chain := List.mem_flatMap.2 ⟨i, hi, hrc⟩
    obtain ⟨y, hy, e⟩ := List.mem_map.1 (h5.subset (h3.subset k1))
    unfold Props.TraceList.own at hy
    obtain ⟨k2, k3⟩ := List.mem_filter.1 ((List.dropWhile_sublist _).subset hy)
    unfold Props.TraceList.Belongs at k3
    simp only [Bool.and_eq_true, beq_iff_eq] at k3
    exact ⟨y, k2, e, by rw [← e]; exact k3.1⟩
  refine ⟨l, h1, ?_⟩
  intro i hi
  obtain ⟨seg, e, made⟩ := h2 i hi
  have hrec : seg.records = chain i := by rw [made.records]; rfl
  obtain ⟨r0, rs, hch⟩ : ∃ r0 rs, chain i = r0 :: rs := by
    cases hc : chain i with
    | nil => have := made.start; rw [hc] at this; cases this
    | cons r0 rs => exact ⟨r0, rs, rfl⟩
  have hall : ∀ r ∈ r0 :: rs, 0 < (ptr r).msr.samplecnt ∧ (ptr r).msr.samplecnt = r.samplecnt ∧ Points h files (ptr r) (smp r) ∧
      typeCode (smp r) = T s.sid := by
    intro r hr'
    obtain ⟨y, k1, k2, k3⟩ := hmem i hi r (hch ▸ hr')
    obtain ⟨p1, p2, p3, p4⟩ := hp y k1
    subst k2
    exact ⟨by omega, p2, p3, by rw [← k3]; exact p4⟩
  refine ⟨seg, e, by rw [hrec, hch]; simp, ?_, ?_⟩
  · intro hd
    rw [made.data, hrec]
    have : ∀ k : List (Arrival R), (∀ r ∈ k, r ∈ chain i) → (k.flatMap fun r => values fb (smp r)) = k.flatMap Arrival.data := by
      intro k
      induction k with
      | nil => intro _; rfl
      | cons r k ih =>
        intro hk
        obtain ⟨y, k1, k2, -⟩ := hmem i hi r (hk r (by simp))
        rw [List.flatMap_cons, List.flatMap_cons, ih fun z hz => hk z (by simp [hz]), ← k2, hd y k1]
    exact this _ fun _ => id
  · intro stored output h64 ho
    have hT := (hall r0 (by simp)).2.2.2
    have hcnt : seg.samplecnt = (((ptr r0, smp r0) :: rs.map fun r => (ptr r, smp r)).map fun y => y.1.msr.samplecnt).sum := by
      rw [made.samplecnt, hch, List.map_cons, List.map_cons, List.map_map, (hall r0 (by simp)).2.1]
      congr 2
      apply List.map_congr_left
      intro r hr'
      exact (hall r (by simp [hr'])).2.1.symm
    have main := C117_unpacked_partial h fb files (ptr r0, smp r0) (rs.map fun r => (ptr r, smp r)) (by
        intro y hy
        rcases List.mem_cons.1 hy with rfl | hy
        · exact Or.inr ⟨(hall r0 (by simp)).1, (hall r0 (by simp)).2.2.1⟩
        · obtain ⟨r, hr', rfl⟩ := List.mem_map.1 hy
          exact Or.inr ⟨(hall r (by simp [hr'])).1, (hall r (by simp [hr'])).2.2.1⟩)
      (hall r0 (by simp)).1 (by
        intro y hy _
        obtain ⟨r, hr', rfl⟩ := List.mem_map.1 hy
        exact (hall r (by simp [hr'])).2.2.2.trans hT.symm)
      seg.samplecnt hcnt (by rw [hT]; exact h64) stored output (by rw [hT]; exact ho)
    rw [hT] at main
    rw [hrec, hch]
    simpa [List.flatMap_map, Function.comp_def] using main

/-! ## Refusals -/

/-- The record of an entry is not to be had: it is nowhere, its file is not there, or the file ends before it does. -/
def Missing (files : List UInt8 → Option (List UInt8)) (p : Pointer) : Prop :=
  match p.place with
  | .buffer _ => False
  | .stream f offset => 0 < p.msr.reclen ∧ 0 ≤ offset ∧ (f.length : Int) < offset + p.msr.reclen
  | .file name offset => files name = none ∨
      ∃ f, files name = some f ∧ 0 < p.msr.reclen ∧ 0 ≤ offset ∧ (f.length : Int) < offset + p.msr.reclen
  | .unset => True

theorem locate_missing {files : List UInt8 → Option (List UInt8)} {p : Pointer} (hm : Missing files p) : locate files p = .err := by
  have key : ∀ (f : List UInt8) (offset : Int), 0 < p.msr.reclen → 0 ≤ offset → (f.length : Int) < offset + p.msr.reclen →
      readRecord f offset p.msr.reclen = .err := by
    intro f offset h1 h2 h3
    unfold readRecord
    rw [if_neg (by omega), if_neg (by omega)]
    refine if_neg ?_
    rw [List.length_take, List.length_drop]
    omega
  unfold Missing at hm
  unfold locate
  split at hm
  · exact hm.elim
  · next e => rw [e]; exact key _ _ hm.1 hm.2.1 hm.2.2
  · next e =>
    rw [e]
    rcases hm with hn | ⟨f, hn, h1, h2, h3⟩
    · simp only [hn]
    · simp only [hn]
      exact key _ _ h1 h2 h3
  · next e => rw [e]

/-- **C117** (refusals).  -1 is returned if an entry with samples behind proper ones has another sample type or an unknown encoding, or its
record is not to be had. -/
theorem C117_entry_refused (h : Bool) (fb : Int × Nat → Nat) (files : List UInt8 → Option (List UInt8))
    (x : Pointer × Samples) (l : List (Pointer × Samples)) (he : ∀ y ∈ x :: l, Entry h files y)
    (hx : 0 < x.1.msr.samplecnt) (ht : ∀ y ∈ l, 0 < y.1.msr.samplecnt → typeCode y.2 = typeCode x.2)
    (q : Pointer) (qs : List Pointer) (hq : 0 < q.msr.samplecnt)
    (hbad : (∀ n, encodingSizeType (bits 8 q.msr.encoding) ≠ some (n, typeCode x.2)) ∨ Missing files q)
    (samplecnt : Int) (hn : ((x :: l).map fun y => y.1.msr.samplecnt).sum ≤ samplecnt)
    (h64 : samplecnt * sampleSize (typeCode x.2) < 2 ^ 64) (stored : Bool) (output : Option Nat) :
    unpackRecordlist h fb files samplecnt stored output ((x :: l).map Prod.fst ++ q :: qs) = .err := by
  have hpx : Points h files x.1 x.2 := by
    rcases he x (by simp) with ⟨h0, -⟩ | ⟨-, hp⟩
    · omega
    · exact hp
  obtain ⟨sz, h1, h2, h3, h4⟩ := decode_points hpx hx
  have hsz : sampleSize (typeCode x.2) = sz := ((Props.Samples.C54_lookups_consistent _).1 _ _ h1).1
  rw [hsz] at h64
  have hnn : ∀ y ∈ x :: l, 0 ≤ y.1.msr.samplecnt := by
    intro y hy
    rcases he y hy with ⟨h0, -⟩ | ⟨h0, -⟩ <;> omega
  rw [sum_counts _ hnn] at hn
  have hty : ∀ y ∈ x :: l, 0 < y.1.msr.samplecnt → typeCode y.2 = typeCode x.2 := by
    intro y hy hc
    rcases List.mem_cons.1 hy with rfl | hy
    · rfl
    · exact ht y hy hc
  generalize hN : ((x :: l).map fun y => y.1.msr.samplecnt.toNat).sum = N at hn
  obtain ⟨M, rfl⟩ : ∃ M : Nat, samplecnt = M := ⟨samplecnt.toNat, by omega⟩
  have e : (M : Int) * sz = ((M * sz : Nat) : Int) := by simp
  rw [e] at h64
  have hds : bits 64 ((M : Int) * sz) = M * sz := by
    rw [e]
    unfold bits
    omega
  have hle : N * sz ≤ M * sz := Nat.mul_le_mul_right _ (by omega)
  have hloc : (∀ n, encodingSizeType (bits 8 q.msr.encoding) ≠ some (n, typeCode x.2)) ∨ locate files q = .err := by
    rcases hbad with hb | hb
    · exact Or.inl hb
    · exact Or.inr (locate_missing hb)
  have hloop := loop_refused (h := h) (decodedsize := M * sz) h1 (by omega) q qs (by omega) hloc (x :: l) 0 he hty (by rw [hN]; omega)
  rw [List.map_cons, List.cons_append] at hloop ⊢
  rw [unpackRecordlist, h1]
  simp only
  rw [hds, hloop]
  split <;> rfl

/-- **C117** (refusals).  -1 is returned for an output buffer that is too small, and without one if the segment has samples. -/
theorem C117_room_refused (h : Bool) (fb : Int × Nat → Nat) (files : List UInt8 → Option (List UInt8)) (p : Pointer) (ps : List Pointer)
    (n : Nat) (T : Char) (hT : encodingSizeType (bits 8 p.msr.encoding) = some (n, T)) (samplecnt : Int)
    (h0 : 0 ≤ samplecnt) (h64 : samplecnt * sampleSize T < 2 ^ 64) (stored : Bool) (output : Option Nat)
    (ho : (∃ size, output = some size ∧ (size : Int) < samplecnt * sampleSize T) ∨ (output = none ∧ stored = true)) :
    unpackRecordlist h fb files samplecnt stored output (p :: ps) = .err := by
  have hsz : sampleSize T = n := ((Props.Samples.C54_lookups_consistent _).1 _ _ hT).1
  rw [hsz] at h64 ho
  have hds : (bits 64 (samplecnt * n) : Int) = samplecnt * n := by
    have := Int.mul_nonneg h0 (show (0 : Int) ≤ n by omega)
    unfold bits
    omega
  rw [unpackRecordlist, hT]
  simp only
  have : refuses stored output (bits 64 (samplecnt * n)) = true := by
    unfold refuses
    rcases ho with ⟨size, e, hs⟩ | ⟨e, hs⟩
    · rw [e]; simp only [decide_eq_true_eq]; omega
    · rw [e]; exact hs
  rw [this]
  rfl

/-! ## Examples -/

open Verif.Props.Record3 (sample sample_valid)
open Verif.Props.Record2 (env0 sample2)
open Verif.Proof.Record2 (msr2 headers2)

/-- A record of version 2 with the two 32-bit integers of `words` as data at offset 64, in the byte order told by `order`. -/
def words2 (order : UInt8) (words : List UInt8) : Spec.Record2.Rec :=
  { sample2 with
    numsamples := 2, dataoffset := 64, numblockettes := 1, chain := [(.data 3 order 7 0, [0, 0, 0, 0, 0, 0, 0, 0])]
    rest := words ++ List.replicate 56 0 }

/-- The same data in the byte order of the header, and in the other one. -/
def big2 : Spec.Record2.Rec := words2 1 [0, 0, 0, 1, 0, 0, 0, 2]

@[inherit_doc big2] def little2 : Spec.Record2.Rec := words2 0 [1, 0, 0, 0, 2, 0, 0, 0]

/-- A record without blockette 1000, with one frame of Steim-1 data. -/
def unknown2 : Spec.Record2.Rec :=
  { sample2 with
    numsamples := 2, dataoffset := 64, numblockettes := 0, chain := []
    rest := List.replicate 16 0 ++ [2, 0, 0, 0, 0, 0, 0, 5, 0, 0, 0, 7, 0, 0, 0, 2] ++ List.replicate 48 0 }

/-- A record that says that its data begins where it ends. -/
def behind2 : Spec.Record2.Rec := { big2 with dataoffset := 128 }

theorem records2_valid : big2.Valid ∧ little2.Valid ∧ unknown2.Valid ∧ behind2.Valid := by
  refine ⟨?_, ?_, ?_, ?_⟩
  all_goals
    constructor
    case blockettes =>
      intro b hb
      simp only [big2, little2, unknown2, behind2, words2, List.mem_cons, List.not_mem_nil, or_false] at hb
      try (rw [hb]; simp [Spec.Record2.Blkt.Valid])
    case exponent =>
      intro b hb e o x hx
      simp only [big2, little2, unknown2, behind2, words2, List.mem_cons, List.not_mem_nil, or_false] at hb
      try
        rw [hb] at hx
        simp [Spec.Record2.Blkt.data?] at hx
        obtain ⟨rfl, rfl, rfl⟩ := hx
        decide +kernel
    all_goals decide +kernel

/-- The pointer to a record alone in a buffer. -/
def alone2 (r : Spec.Record2.Rec) : Pointer := bufferPointer r.bytes 0 (msr2 env0 false r (headers2 r)) r.dataoffset

theorem big2_alone : Alone env0 false false big2.bytes (msr2 env0 false big2 (headers2 big2)) := by
  unfold Alone
  decide +kernel

theorem big2_plain : Plainly false big2.bytes :=
  Or.inr ⟨big2, records2_valid.1, Or.inr (by decide), by decide +kernel, by decide +kernel, Or.inr (by decide +kernel), rfl⟩

/-- The record behind other bytes, in a buffer and in a file. -/
example : Plainly false big2.bytes ∧ Alone env0 false false big2.bytes (msr2 env0 false big2 (headers2 big2)) ∧
    Full env0 false false false big2.bytes (msr2 env0 false big2 (headers2 big2)) (msr2 env0 false big2 (headers2 big2)) ∧
    0 < (msr2 env0 false big2 (headers2 big2)).samplecnt ∧
    unpackData false 0 (msr2 env0 false big2 (headers2 big2)) big2.bytes = .ok (.ints [1, 2]) ∧
    dataBounds false (msr2 env0 false big2 (headers2 big2)) (big2.bytes ++ [7, 7]) = .ok (64, 8) :=
  ⟨big2_plain, big2_alone, rfl, by decide, by decide +kernel, by decide +kernel⟩

theorem big2_points (files : List UInt8 → Option (List UInt8)) : Points false files (alone2 big2) (.ints [1, 2]) := by
  have := (C117_pointers_partial big2_plain big2_alone (ud := false) rfl (by decide) (a := 0) (s := .ints [1, 2]) (by decide +kernel)
    files [] [] [] 64 8 (by decide +kernel)).1
  rw [List.append_nil, List.nil_append] at this
  exact this

/-- The record twice, to an output buffer and to the segment. -/
example : (∀ y ∈ [(alone2 big2, Samples.ints [1, 2]), (alone2 big2, .ints [1, 2])], Entry false (fun _ => none) y) ∧
    (alone2 big2).msr.samplecnt = 2 ∧ typeCode (.ints [1, 2]) = 'i' ∧ sampleSize 'i' = 4 ∧
    Room true (some 16) 16 ∧ Room false none 16 := by
  refine ⟨?_, rfl, rfl, rfl, Or.inl ⟨16, rfl, by decide⟩, Or.inr ⟨rfl, rfl⟩⟩
  intro y hy
  simp only [List.mem_cons, List.not_mem_nil, or_false, or_self] at hy
  rw [hy]
  exact Or.inr ⟨by decide, big2_points _⟩

/-- Records of two sources, one of them with two segments. -/
def two (sid : List UInt8) (t : Int) : Arrival Nat :=
  { sid, pub := 1, start := t, stop := t + 1, period := 1, tol := 0, rate := 1, samplecnt := 2, sampletype := 'i', data := [1, 2] }

example : ∃ hist tl, Listed Props.Trace.same false true true hist tl ∧
    hist.map Prod.fst = [two [65] 0, two [66] 0, two [65] 2, two [65] 9] ∧
    ∀ y ∈ hist, 0 < y.1.samplecnt ∧ (alone2 big2).msr.samplecnt = y.1.samplecnt ∧
      Points false (fun _ => none) (alone2 big2) (.ints [1, 2]) ∧ typeCode (.ints [1, 2]) = 'i' ∧
      y.1.data = values (fun _ => 0) (.ints [1, 2]) := by
  obtain ⟨hist, tl, h, e⟩ := Proof.TraceList.listings Props.Trace.same false true true [two [65] 0, two [66] 0, two [65] 2, two [65] 9]
  refine ⟨hist, tl, h, e, ?_⟩
  intro y hy
  have : y.1 ∈ hist.map Prod.fst := List.mem_map.2 ⟨y, hy, rfl⟩
  rw [e] at this
  simp only [List.mem_cons, List.not_mem_nil, or_false] at this
  rcases this with h | h | h | h <;> rw [h] <;> exact ⟨by decide, rfl, big2_points _, rfl, rfl⟩

/-- A record of text behind the record, one in a file that is too short, one in no file, and one that is nowhere. -/
example : (∀ n, encodingSizeType (bits 8 { (alone2 big2).msr with encoding := 0 }.encoding) ≠ some (n, typeCode (.ints [1, 2]))) ∧
    Missing (fun _ => some [1, 2, 3]) (filePointer [97] 128 (alone2 big2).msr 64) ∧
    Missing (fun _ => none) (filePointer [97] 128 (alone2 big2).msr 64) ∧
    Missing (fun _ => none) { alone2 big2 with place := .unset } := by
  refine ⟨?_, Or.inr ⟨_, rfl, by decide +kernel, by decide +kernel, by decide +kernel⟩, Or.inl rfl, trivial⟩
  intro n h
  have : some (1, 't') = some (n, 'i') := h
  simp at this

example : encodingSizeType (bits 8 (alone2 big2).msr.encoding) = some (4, 'i') ∧ (15 : Int) < 4 * sampleSize 'i' := by decide

/-! ## What is violated -/

/-- **C117** (violated).  Big-endian header, little-endian data, little-endian host: the whole `swapflag` is taken for the one of the
data, and the samples 1, 2 come out as 16777216, 33554432. -/
theorem C117_byte_order_violated : little2.Valid ∧
    Alone env0 false false little2.bytes (msr2 env0 false little2 (headers2 little2)) ∧
    unpackData false 0 (msr2 env0 false little2 (headers2 little2)) little2.bytes = .ok (.ints [1, 2]) ∧
    unpackRecordlist false (fun _ => 0) (fun _ => none) 2 false none [alone2 little2] =
      .ok { count := 2, data := [16777216, 33554432], sampletype := some 'i' } :=
  ⟨records2_valid.2.1, by unfold Alone; decide +kernel, by decide +kernel, by decide +kernel⟩

/-- **C117** (violated).  A record without blockette 1000: `msr3_unpack_data` assumes Steim-1 and decodes it, unpacking the record list
fails. -/
theorem C117_no_encoding_violated : unknown2.Valid ∧
    Model.Record2.unpack2 env0 false 0 unknown2.bytes 128 false = .ok (.record (msr2 env0 false unknown2 (headers2 unknown2))) ∧
    unpackData false 0 (msr2 env0 false unknown2 (headers2 unknown2)) unknown2.bytes = .ok (.ints [5, 7]) ∧
    unpackRecordlist false (fun _ => 0) (fun _ => none) 2 false none [alone2 unknown2] = .err :=
  ⟨records2_valid.2.2.1, by decide +kernel, by decide +kernel, by decide +kernel⟩

/-- **C117** (violated).  A record whose data begins at its end: `msr3_unpack_data` refuses, unpacking the record list reads behind the
buffer. -/
theorem C117_offset_violated : behind2.Valid ∧
    Alone env0 false false behind2.bytes (msr2 env0 false behind2 (headers2 behind2)) ∧
    unpackData false 0 (msr2 env0 false behind2 (headers2 behind2)) behind2.bytes = .err ∧
    unpackRecordlist false (fun _ => 0) (fun _ => none) 2 false none [alone2 behind2] = .oob :=
  ⟨records2_valid.2.2.2, by unfold Alone; decide +kernel, by decide +kernel, by decide +kernel⟩

/-- **C117** (violated).  A file read by a byte range, `a@0-`: the file `a` is read, but the entry has the path with the range, and
there is no such file. -/
theorem C117_path_range_violated (files : List UInt8 → Option (List UInt8)) (hf : files [97, 64, 48, 45] = none) :
    PathRange.opening true [97, 64, 48, 45] = .ok ⟨[97], 0, 0⟩ ∧
    unpackRecordlist false (fun _ => 0) files 2 false none [filePointer [97, 64, 48, 45] 128 (alone2 big2).msr 64] = .err := by
  refine ⟨by decide +kernel, ?_⟩
  have h : encodingSizeType (bits 8 (filePointer [97, 64, 48, 45] 128 (alone2 big2).msr 64).msr.encoding) = some (4, 'i') := rfl
  have hl : locate files (filePointer [97, 64, 48, 45] 128 (alone2 big2).msr 64) = .err :=
    locate_missing (show Missing files _ from Or.inl hf)
  rw [unpackRecordlist, h]
  simp only
  rw [unpackLoop, if_neg (by decide), h]
  simp only
  unfold decodeRecord
  rw [hl]
  rfl

example : (fun p => if p = [97] then some big2.bytes else none : List UInt8 → Option (List UInt8)) [97, 64, 48, 45] = none := by decide

/-- **C117** (violated).  A record without samples at the beginning of the list: its encoding decides the type, and the samples of the
others are refused. -/
theorem C117_first_empty_violated (files : List UInt8 → Option (List UInt8)) :
    Entry false files ({ alone2 big2 with msr := { (alone2 big2).msr with encoding := 0, samplecnt := 0 } }, .text []) ∧
    Entry false files (alone2 big2, .ints [1, 2]) ∧
    unpackRecordlist false (fun _ => 0) files 2 false none
      [{ alone2 big2 with msr := { (alone2 big2).msr with encoding := 0, samplecnt := 0 } }, alone2 big2] = .err :=
  ⟨Or.inl ⟨rfl, rfl⟩, Or.inr ⟨by decide, big2_points _⟩, by
    rw [unpackRecordlist, show encodingSizeType (bits 8 ({ (alone2 big2).msr with encoding := 0, samplecnt := 0 } : Msr).encoding)
      = some (1, 't') from rfl]
    simp only
    rw [unpackLoop, if_pos rfl, unpackLoop, if_neg (by decide), show encodingSizeType (bits 8 (alone2 big2).msr.encoding) =
      some (4, 'i') from rfl]
    rfl⟩

end Verif.Props.RecordList
