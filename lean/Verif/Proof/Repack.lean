import Verif.Proof.Parse
/-! Lemmas on writing records. -/
namespace Verif.Proof.Repack
open Verif.Model Verif.Model.Bytes Verif.Model.Steim Verif.Model.Mem Verif.Model.Detect
open Verif.Model.Record3 Verif.Proof.Bytes Verif.Proof.Mem Verif.Proof.Record3
open Verif.Spec Verif.Spec.Record3

theorem setCrc_rec (h : Bool) (align : Nat) (r : Rec) (d : Nat)
    (body rest : List UInt8) (reclen : Nat) (hl : reclen = 40 + body.length) :
    setCrc h align (r.fixedFor d ++ (body ++ rest)) reclen
      = .ok (({ r with crc := (Spec.Crc.crc32c 0
              (({ r with crc := 0 } : Rec).fixedFor d ++ body)).toNat } : Rec).fixedFor d
                ++ (body ++ rest)) := by
  unfold setCrc
  rw [show ([0, 0, 0, 0] : List UInt8) = le 4 0 by decide, poke_crc, bind_ok]
  have hc := Props.Crc.C17_is_crc32c_partial h (align % 4)
    (({ r with crc := 0 } : Rec).fixedFor d ++ body) rest 0
    (by intro h0; have := congrArg List.length h0; simp [fixed_length] at this)
    (by right; right; simp [fixed_length]; omega)
  rw [List.append_assoc] at hc
  rw [show (reclen : Int) = ((({ r with crc := 0 } : Rec).fixedFor d ++ body).length : Nat) by
    simp [fixed_length, hl], hc]
  simp only [ofMem, bind_ok, store_le, poke_crc]

theorem bytes_length (r : Rec) :
    r.bytes.length = 40 + r.sid.length + r.extra.length + r.payload.length := by
  unfold Rec.bytes Rec.fixed
  simp only [List.length_append, fixed_length]

theorem withCrc_sid (r : Rec) : r.withCrc.sid = r.sid := rfl
theorem withCrc_extra (r : Rec) : r.withCrc.extra = r.extra := rfl
theorem withCrc_payload (r : Rec) : r.withCrc.payload = r.payload := rfl

theorem bytes_eq (r : Rec) :
    r.bytes = r.fixedFor r.payload.length ++ (r.sid ++ (r.extra ++ r.payload)) := by
  unfold Rec.bytes Rec.fixed
  simp only [List.append_assoc]

/-- Storing the CRC completes a record. -/
theorem setCrc_finish (h : Bool) (align : Nat) (q : Rec) (sid extra data rest : List UInt8)
    (e1 : q.sid = sid) (e2 : q.extra = extra) (n : Nat)
    (hn : n = 40 + sid.length + extra.length + data.length) :
    setCrc h align (q.fixedFor data.length ++ ((sid ++ (extra ++ data)) ++ rest)) n
      = .ok (({ q with payload := data } : Rec).withCrc.bytes ++ rest) := by
  subst e1 e2
  have hz : ({ q with crc := 0 } : Rec).fixedFor data.length ++ (q.sid ++ (q.extra ++ data))
      = ({ q with payload := data, crc := 0 } : Rec).bytes := by
    rw [bytes_eq]; rfl
  rw [setCrc_rec h align q _ _ rest n (by simp; omega), bytes_eq, hz]
  simp only [List.append_assoc]
  rfl

theorem packHeader3_bounds (nr : Nat → Nat) (h : Bool) (m : Msr) (buf : List UInt8) (n : Nat)
    (hb : 40 + strlen m.sid + m.extra.length ≤ buf.length) :
    packHeader3 nr h m buf n ≠ .oob ∧ ∀ b o, packHeader3 nr h m buf n = .ok (b, o) →
      b.length = buf.length ∧ o = 40 + strlen m.sid + m.extra.length := by
  unfold strlen at *
  unfold packHeader3
  simp only
  by_cases h1 : packReclen m.reclen < 40 ∨ packReclen m.reclen > 10485760
  · rw [if_pos h1]; simp
  rw [if_neg h1]
  by_cases h2 : n < (40 + (m.sid.takeWhile (· != 0)).length + m.extra.length) % 2 ^ 32
  · rw [if_pos h2]; simp
  rw [if_neg h2]
  cases ht : nstime2time m.starttime with
  | none => simp
  | some t =>
  simp only
  by_cases h3 : (m.sid.takeWhile (· != 0)).length > 255
  · rw [if_pos h3]; simp
  rw [if_neg h3]
  have key : ∃ b, pokes buf ([(0, [77]), (1, [83]), (2, [3]), (3, store h false 1 m.flags)] ++
            timeWrites h t ++
            [ (15, store h false 1 (packEncoding m.encoding)),
              (16, store h h 8 (storedRate nr m.samprate)),
              (32, store h false 1 m.pubversion),
              (33, store h false 1 (m.sid.takeWhile (· != 0)).length),
              (34, store h h 2 m.extra.length),
              (40, m.sid.takeWhile (· != 0)) ] ++
            (if m.extra.length > 0 then
              [(40 + (m.sid.takeWhile (· != 0)).length, m.extra)] else [])) = .ok b := by
    apply pokes_ne_oob
    intro w hw
    have h2 : ∀ (p : Nat × List UInt8), w = p → p.1 + p.2.length ≤ buf.length →
        w.1 + w.2.length ≤ buf.length := by
      intro p e hp; subst e; exact hp
    simp only [timeWrites, List.mem_append, List.mem_cons, List.not_mem_nil, or_false] at hw
    rcases hw with ((hw | hw) | hw) | hw
    · rcases hw with hw | hw | hw | hw <;> apply h2 _ hw <;> simp [store_length] <;> omega
    · rcases hw with hw | hw | hw | hw | hw | hw <;> apply h2 _ hw <;> simp [store_length] <;> omega
    · rcases hw with hw | hw | hw | hw | hw | hw <;> apply h2 _ hw <;> simp [store_length] <;> omega
    · split at hw
      · simp only [List.mem_cons, List.not_mem_nil, or_false] at hw
        apply h2 _ hw; simp; omega
      · simp at hw
  obtain ⟨b, hk⟩ := key
  rw [hk, bind_ok]
  refine ⟨by simp, ?_⟩
  intro b' o hbo
  injection hbo with hbo
  injection hbo with h1 h2
  exact ⟨by rw [← h1, pokes_length hk], h2.symm⟩

end Verif.Proof.Repack
