import Verif.Proof.RecordList
import Verif.Proof.ReaderTop
import Verif.Props.Record3
/-!
# Lemmas about the entries that readers make point to records
-/
namespace Verif.Proof.RecordList
open Verif.Model Verif.Model.Bytes Verif.Model.Steim Verif.Model.Samples Verif.Model.Mem Verif.Model.Record3
  Verif.Model.RecordList
open Verif.Proof.Mem Verif.Proof.Reader Verif.Props.RecordList Verif.Props.Reader

/-- The offset of the data. -/
def dataOffset (h : Bool) (m : Msr) (mem : List UInt8) : Res Nat :=
  if m.formatversion = 3 then .ok ((40 + strlen m.sid + m.extra.length) % 2 ^ 32)
  else if m.formatversion = 2 then load h m.swapHeader mem 44 2 else .err

theorem dataBounds_offset {h : Bool} {m : Msr} {mem : List UInt8} {off size : Nat} (e : dataBounds h m mem = .ok (off, size)) :
    dataOffset h m mem = .ok off := by
  unfold dataBounds at e
  obtain ⟨⟨o, n⟩, e1, e2⟩ := bind_eq_ok.1 e
  simp only at e2
  have ho : o = off := by
    split at e2
    · obtain ⟨k, -, e3⟩ := bind_eq_ok.1 e2
      have := Res.ok.inj e3
      simp only [Prod.mk.injEq] at this
      exact this.1
    · have := Res.ok.inj e2
      simp only [Prod.mk.injEq] at this
      exact this.1
  subst ho
  unfold dataOffset
  split at e1
  · next h3 =>
    have := Res.ok.inj e1
    simp only [Prod.mk.injEq] at this
    rw [if_pos h3, this.1]
  · next h3 =>
    rw [if_neg h3]
    split at e1
    · next h2 =>
      obtain ⟨k, e3, e4⟩ := bind_eq_ok.1 e1
      have := Res.ok.inj e4
      simp only [Prod.mk.injEq] at this
      rw [if_pos h2, e3, this.1]
    · cases e1

theorem peek_longer {mem b : List UInt8} {o n : Nat} {x : List UInt8} (e : peek mem o n = .ok x) :
    peek (mem ++ b) o n = .ok x := by
  unfold peek at e ⊢
  split at e
  · next h =>
    rw [if_pos (by rw [List.length_append]; omega), List.drop_append_of_le_length (by omega),
      List.take_append_of_le_length (by rw [List.length_drop]; omega)]
    exact e
  · cases e

theorem dataOffset_longer {h : Bool} {m : Msr} {mem b : List UInt8} {off off' : Nat} (e : dataOffset h m mem = .ok off)
    (e' : dataOffset h m (mem ++ b) = .ok off') : off = off' := by
  unfold dataOffset at e e'
  split at e
  · next h3 => rw [if_pos h3] at e'; exact Res.ok.inj (e.symm.trans e')
  · next h3 =>
    rw [if_neg h3] at e'
    split at e
    · next h2 =>
      rw [if_pos h2] at e'
      unfold load at e e'
      obtain ⟨x, e1, e2⟩ := bind_eq_ok.1 e
      rw [peek_longer e1, bind_ok] at e'
      exact Res.ok.inj (e2.symm.trans e')
    · cases e

/-- The offset found when the record was read is the one found for the record alone. -/
theorem bounds_agree {h : Bool} {m : Msr} {b t : List UInt8} {off size : Nat} {o s : Nat}
    (e : dataBounds h m (b ++ t) = .ok (off, size)) (e' : dataBounds h m b = .ok (o, s)) : off = o :=
  (dataOffset_longer (dataBounds_offset e') (dataBounds_offset e)).symm

theorem unpackData_bounds {h : Bool} {a : Nat} {m : Msr} {b : List UInt8} {s : Samples} (hc : 0 < m.samplecnt)
    (e : unpackData h a m b = .ok s) : ∃ off size, dataBounds h m b = .ok (off, size) ∧ (off : Int) < m.reclen := by
  unfold unpackData at e
  rw [if_neg (by omega)] at e
  split at e
  · cases e
  split at e
  · cases e
  obtain ⟨⟨off, size⟩, e1, e2⟩ := bind_eq_ok.1 e
  simp only at e2
  split at e2
  · cases e2
  · exact ⟨off, size, e1, by omega⟩

/-- What is needed of the record. -/
structure Plain (m : Msr) (b : List UInt8) : Prop where
  reclen : (b.length : Int) = m.reclen
  whole : m.formatversion = 3 → ((40 + strlen m.sid + m.extra.length) % 2 ^ 32 : Nat) + (m.datalength : Int) = m.reclen
  encoding : 0 ≤ m.encoding ∧ m.encoding < 256
  order : m.swapHeader = true → m.swapPayload = true

theorem points {h : Bool} {files : List UInt8 → Option (List UInt8)} {p : Pointer} {b t : List UInt8} {m m' : Msr} {s : Samples}
    {a off size : Nat} (hp : Plain m b) (hm : m' = { m with samples := m'.samples }) (hc : 0 < m.samplecnt)
    (hu : unpackData h a m b = .ok s) (hd : dataBounds h m' (b ++ t) = .ok (off, size)) (hl : Located files p b)
    (e1 : p.msr = { m' with samples := .text [] }) (e2 : p.dataoffset = off) : Points h files p s := by
  have e3 : p.msr = { m with samples := .text [] } := by rw [e1, hm]
  have hd' : dataBounds h m (b ++ t) = .ok (off, size) := by rw [hm] at hd; exact hd
  obtain ⟨o, n, hb, hlt⟩ := unpackData_bounds hc hu
  have ho := bounds_agree hd' hb
  subst ho
  refine ⟨⟨b, hl, ?_, ⟨n, ?_⟩, a, ?_⟩, ?_, ?_, ?_⟩
  · rw [e3]; exact hp.reclen
  · rw [e3, e2]; exact hb
  · rw [e3]; exact hu
  · rw [e3, e2]
    intro h3
    have := dataBounds_offset hb
    unfold dataOffset at this
    rw [if_pos (show m.formatversion = 3 from h3)] at this
    rw [← Res.ok.inj this]
    exact hp.whole h3
  · rw [e3]; exact hp.encoding
  · rw [e3]; exact hp.order

theorem plain3 {env : Record2.Env} {vc : Bool} {r : Spec.Record3.Rec} (v : r.Valid) (text : ∀ x ∈ r.sid, x ≠ 0)
    (hl : r.bytes.length ≤ 10485760) {m : Msr} (ha : Alone env false vc r.bytes m) :
    Plain m r.bytes ∧ Piece env false vc false r.bytes m m := by
  obtain ⟨hp, -, s, rfl⟩ := piece3 v hl ha
  have hb := Repack.bytes_length r
  refine ⟨⟨rfl, fun _ => ?_, ?_, (nomatch ·)⟩, hp⟩
  · show ((40 + strlen r.sid + r.extra.length) % 2 ^ 32 : Nat) + (r.payload.length : Int) = r.bytes.length
    have hst : strlen r.sid = r.sid.length := by unfold strlen; rw [Verif.Props.Record3.takeWhile_text _ text]
    rw [hst]
    omega
  · have := v.encoding
    exact ⟨by show (0 : Int) ≤ ((r.encoding : Nat) : Int); omega, by show ((r.encoding : Nat) : Int) < 256; omega⟩

theorem plain2 {env : Record2.Env} {h vc : Bool} {r : Spec.Record2.Rec} (v : r.Valid) (ht : Record2.Told h r)
    (hne : (Record2.hdrTime r).instant ≠ NSTERROR) (hd : (r.last Spec.Record2.Blkt.data?).isSome)
    (ho : r.be = h ∨ r.dataBE = r.be) {m : Msr} (ha : Alone env h vc r.bytes m) :
    Plain m r.bytes ∧ Piece env h vc false r.bytes m m := by
  have hp := piece2 v ht hne hd ha
  have h0 := Record2.parse2_eq env h 0 r v ht hne hd [] vc false false
  unfold Alone at ha
  rw [List.append_nil, ha, withSamples_false, bind_ok] at h0
  injection h0 with e
  injection e with e
  injection e with e
  subst e
  refine ⟨⟨rfl, (nomatch ·), ?_, ?_⟩, hp⟩
  · obtain ⟨d, hd⟩ := Option.isSome_iff_exists.1 hd
    show 0 ≤ ((r.last Spec.Record2.Blkt.data?).map fun d => (d.1.toNat : Int)).getD (-1) ∧
      ((r.last Spec.Record2.Blkt.data?).map fun d => (d.1.toNat : Int)).getD (-1) < 256
    rw [hd]
    have := d.1.toNat_lt
    simp only [Option.map_some, Option.getD_some]
    omega
  · show (r.be != h) = true → (r.dataBE != h) = true
    rcases ho with e | e
    · rw [e]; simp
    · rw [e]; exact id

/-- The record returned differs in the samples only. -/
theorem full_same {env : Record2.Env} {h vc ud : Bool} {b : List UInt8} {m m' : Msr} (hp : Piece env h vc false b m m)
    (hf : Full env h vc ud b m m') (h0 : 0 ≤ m.encoding) : m' = { m with samples := m'.samples } := by
  have := (piece_full hp hf).samples 0 []
  unfold withSamples at this
  split at this
  · split at this
    · next s _ =>
      have := Res.ok.inj this
      injection this with e
      rw [← e]
      unfold assumed
      rw [if_neg (by omega)]
    · have := Res.ok.inj this; cases this
    · cases this
    · cases this
  · have := Res.ok.inj this
    injection this with e
    rw [← e]

end Verif.Proof.RecordList
