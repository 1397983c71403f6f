import Verif.Props.HeaderCount
/-!
# C143: the offset of the data in the header of a version 2 record
-/
namespace Verif.Props.DataOffset
open Verif.Model.Steim Verif.Model.Mem Verif.Model.Record3 Verif.Model.Samples Verif.Model.Pack Verif.Model.Pack2 Verif.Model
open Verif.Proof.Mem
open Verif.Props.HeaderCount

/-- The header tells that the data begin at `d`: bytes 44 and 45, the more significant one first. -/
def Tells (r : List UInt8) (d : Nat) : Prop :=
  ∃ x y, r[44]? = some x ∧ r[45]? = some y ∧ x.toNat * 256 + y.toNat = d

/-- The bytes `data` are in the record from `d` on. -/
def Holds (r data : List UInt8) (d : Nat) : Prop := (r.drop d).take data.length = data

theorem poke_after {mem m b : List UInt8} {off i : Nat} (h : poke mem off b = .ok m) (hi : off + b.length ≤ i) :
    m[i]? = mem[i]? := by
  unfold poke at h
  split at h
  · injection h with h
    subst h
    rename_i hl
    have e : (mem.take off ++ b).length = off + b.length := by
      rw [List.length_append, List.length_take]; omega
    rw [List.getElem?_append_right (by omega), e, List.getElem?_drop]
    congr 1
    omega
  · cases h

theorem poke_holds {mem m b : List UInt8} {off : Nat} (h : poke mem off b = .ok m) : Holds m b off := by
  unfold poke at h
  split at h
  · injection h with h
    subst h
    rename_i hl
    unfold Holds
    rw [List.append_assoc, List.drop_append_of_le_length (by rw [List.length_take]; omega),
      List.drop_eq_nil_of_le (by rw [List.length_take]; omega), List.nil_append, List.take_left']
    rfl
  · cases h

theorem holds_iff {r data : List UInt8} {d : Nat} : Holds r data d ↔ ∀ i, i < data.length → r[d + i]? = data[i]? := by
  unfold Holds
  constructor
  · intro h i hi
    have e : ((r.drop d).take data.length)[i]? = data[i]? := by rw [h]
    rw [← e, List.getElem?_take_of_lt hi, List.getElem?_drop]
  · intro h
    apply List.ext_getElem?
    intro i
    by_cases hi : i < data.length
    · rw [List.getElem?_take_of_lt hi, List.getElem?_drop, h i hi]
    · rw [List.getElem?_take_eq_none (by omega), List.getElem?_eq_none (by omega)]

theorem big_two (h : Bool) (d : Nat) : big h 2 d = [UInt8.ofNat (d / 256), UInt8.ofNat d] := by
  rw [Verif.Proof.Pack2.big_eq]
  simp only [Verif.Spec.Record2.num, Verif.Spec.Record3.le, if_true, List.reverse_cons, List.reverse_nil,
    List.nil_append, List.cons_append]
  congr 1
  · apply UInt8.toNat_inj.1
    simp
  · congr 1
    apply UInt8.toNat_inj.1
    simp

/-- The bytes of the offset. -/
def Offset (r : List UInt8) (d : Nat) : Prop := r[44]? = some (UInt8.ofNat (d / 256)) ∧ r[45]? = some (UInt8.ofNat d)

/-- The record has the offset of its data and, at `d`, samples from number `k` on. -/
def Good (h : Bool) (src : Samples) (enc reclen d : Nat) (r : List UInt8) : Prop :=
  Offset r d ∧ ∃ k data n, packData h (!h) (passed (dropSamples k src)) (reclen - d) enc = .ok (data, n) ∧ Holds r data d

theorem finish_good {h : Bool} {buf m data : List UInt8} {reclen d n : Nat} (hd : 46 ≤ d) (ho : Offset buf d)
    (hm : finishRecord2 h buf reclen d data n = .ok m) : Offset m d ∧ Holds m data d := by
  unfold finishRecord2 at hm
  obtain ⟨a, h1, hm⟩ := bind_eq_ok.1 hm
  obtain ⟨b, h2, hm⟩ := bind_eq_ok.1 hm
  have l2 : 30 + (big h 2 n).length ≤ 44 := by rw [big_two]; show 30 + 2 ≤ 44; decide
  have ob : Offset b d := by
    constructor
    · rw [poke_after h2 l2, poke_other h1 (by omega)]; exact ho.1
    · rw [poke_after h2 (by omega), poke_other h1 (by omega)]; exact ho.2
  have hb : Holds b data d := by
    rw [holds_iff]
    intro i hi
    rw [poke_after h2 (by omega)]
    exact holds_iff.1 (poke_holds h1) i hi
  split at hm
  · constructor
    · constructor
      · rw [poke_other hm (by omega)]; exact ob.1
      · rw [poke_other hm (by omega)]; exact ob.2
    · rw [holds_iff]
      intro i hi
      rw [poke_other hm (by omega)]
      exact holds_iff.1 hb i hi
  · injection hm with hm
    rw [← hm]
    exact ⟨ob, hb⟩

theorem time_offset {h : Bool} {buf m : List UInt8} {t : DateTime} {d : Nat} (ho : Offset buf d)
    (hm : pokes buf (timeWrites2 h t) = .ok m) : Offset m d := by
  have key : ∀ (ws : List (Nat × List UInt8)) (buf : List UInt8), (∀ x ∈ ws.map (fun w => w.1 + w.2.length), x ≤ 44) →
      Offset buf d → pokes buf ws = .ok m → Offset m d := by
    intro ws
    induction ws with
    | nil => intro buf _ ho hm; injection hm with hm; rw [← hm]; exact ho
    | cons w ws ih =>
      intro buf hw ho hm
      obtain ⟨a, h1, h2⟩ := bind_eq_ok.1 hm
      have hl := hw _ (List.mem_map_of_mem (f := fun w : Nat × List UInt8 => w.1 + w.2.length) (List.mem_cons_self ..))
      refine ih a (fun x hx => hw x (List.mem_cons_of_mem _ hx)) ⟨?_, ?_⟩ h2
      · rw [poke_after h1 (by omega)]; exact ho.1
      · rw [poke_after h1 (by omega)]; exact ho.2
  refine key _ _ ?_ ho hm
  simp [timeWrites2, Verif.Proof.Pack2.big_eq, Verif.Proof.Pack2.byte_eq, Verif.Proof.Record2.num_length]

theorem round_good {next : Nat → Out Int} {h : Bool} {src : Samples} {enc reclen d total : Nat} {buf : List UInt8}
    {r : Round} (hd : 46 ≤ d) (ho : Offset buf d)
    (hr : packRound2 next h src enc reclen d buf total = .ok r) :
    match r with
    | .stop p => ∀ x ∈ p.records, Good h src enc reclen d x
    | .go x buf' _ => Good h src enc reclen d x ∧ Offset buf' d := by
  unfold packRound2 at hr
  split at hr
  · injection hr with hr; subst hr; intro x hx; cases hx
  · cases hr
  · cases hr
  · rename_i data n hp
    split at hr
    · injection hr with hr; subst hr; intro x hx; cases hx
    · obtain ⟨m, h1, hr⟩ := bind_eq_ok.1 hr
      obtain ⟨g1, g2⟩ := finish_good hd ho h1
      have g : Good h src enc reclen d m := ⟨g1, total, data, n, hp, g2⟩
      split at hr
      · injection hr with hr; subst hr
        intro x hx
        rw [List.mem_singleton.1 hx]
        exact g
      · obtain ⟨t, -, hr⟩ := bind_eq_ok.1 hr
        split at hr
        · injection hr with hr; subst hr
          intro x hx
          rw [List.mem_singleton.1 hx]
          exact g
        · obtain ⟨b, h2, hr⟩ := bind_eq_ok.1 hr
          injection hr with hr; subst hr
          exact ⟨g, time_offset g1 h2⟩

theorem loop_good {next : Nat → Out Int} {h : Bool} {src : Samples} {enc reclen maxs d : Nat} {flush : Bool}
    (hd : 46 ≤ d) : ∀ (fuel : Nat) {buf : List UInt8} {total : Nat} {p : Packing}, Offset buf d →
    packLoop2 next h src enc reclen maxs d flush fuel buf total = .ok p →
    ∀ x ∈ p.records, Good h src enc reclen d x
  | 0, _, _, _, _, hp => by unfold packLoop2 at hp; cases hp
  | fuel + 1, buf, total, p, ho, hp => by
    unfold packLoop2 at hp
    split at hp
    · obtain ⟨r, h1, hp⟩ := bind_eq_ok.1 hp
      have g := round_good hd ho h1
      cases r with
      | stop q => injection hp with hp; rw [← hp]; exact g
      | go x b t =>
        obtain ⟨q, h2, hp⟩ := bind_eq_ok.1 hp
        injection hp with hp
        rw [← hp]
        intro y hy
        rcases List.mem_cons.1 hy with e | hy
        · rw [e]; exact g.1
        · exact loop_good hd fuel g.2 h2 y hy
    · injection hp with hp
      rw [← hp]
      intro x hx
      cases hx

theorem steps_grow {hostBE : Bool} {L : Nat} : ∀ (steps : List Step) {buf b : List UInt8} {written next count n : Nat},
    addSteps hostBE L steps buf written next count = .ok (b, n) → written ≤ n
  | [], buf, b, written, next, count, n, h => by
    unfold addSteps at h
    injection h with h
    injection h with _ h
    omega
  | .refuse :: t, _, _, _, _, _, _, h => by unfold addSteps at h; cases h
  | .undefined :: t, _, _, _, _, _, _, h => by unfold addSteps at h; cases h
  | .room size :: t, buf, b, written, next, count, n, h => by
    unfold addSteps at h
    split at h
    · cases h
    · exact steps_grow t h
  | .add type size writes :: t, buf, b, written, next, count, n, h => by
    unfold addSteps at h
    split at h
    · cases h
    · obtain ⟨b1, h1, h⟩ := bind_eq_ok.1 h
      obtain ⟨b2, h2, h⟩ := bind_eq_ok.1 h
      have := steps_grow t h
      omega

theorem header_size {rates : Rates} {json : List UInt8 → Option Extra} {hostBE : Bool} {msr : Msr} {buf b : List UInt8}
    {recbuflen n : Nat} (h : packHeader2 rates json hostBE msr buf recbuflen = .ok (b, n)) : 56 ≤ n := by
  unfold packHeader2 at h
  dsimp only at h
  split at h
  · cases h
  split at h
  · cases h
  obtain ⟨c, -, h⟩ := bind_eq_ok.1 h
  split at h
  · cases h
  split at h
  · cases h
  split at h
  · cases h
  obtain ⟨m, h1, h2⟩ := bind_eq_ok.1 h
  have := steps_grow _ h2
  omega

theorem start_size {buf b : List UInt8} {enc hl d : Nat} (hl56 : 56 ≤ hl) (h : dataStart buf enc hl = .ok (b, d)) :
    hl ≤ d ∧ d < hl + 64 := by
  unfold dataStart at h
  split at h
  · obtain ⟨a, -, h⟩ := bind_eq_ok.1 h
    injection h with h
    injection h with _ h
    subst h
    unfold frameOffset
    split <;> omega
  · injection h with h
    injection h with _ h
    omega

/-- All records of a call. -/
theorem records_good (rates : Rates) (json : List UInt8 → Option Extra) (sampletime : Int → Nat → Nat → Out Int)
    (hostBE : Bool) (msr : Msr) (flush : Bool) (junk : List UInt8) (rounds : Nat) (p : Packing)
    (hp : packMseed2 rates json sampletime hostBE msr flush junk rounds = .ok p) (hc : msr.samples.count ≠ 0)
    (r : List UInt8) (hr : r ∈ p.records) :
    ∃ b hl d, packHeader2 rates json hostBE msr
        (List.replicate 48 0 ++ junk.take ((packReclen msr.reclen).toNat - 48)) (packReclen msr.reclen).toNat = .ok (b, hl) ∧
      56 ≤ hl ∧ hl ≤ d ∧ d < hl + 64 ∧
      Good hostBE msr.samples (packEncoding msr.encoding) (packReclen msr.reclen).toNat d r := by
  unfold packMseed2 at hp
  dsimp only at hp
  split at hp
  · injection hp with hp; rw [← hp] at hr; cases hr
  split at hp
  · injection hp with hp; rw [← hp] at hr; cases hr
  split at hp
  · injection hp with hp; rw [← hp] at hr; cases hr
  · cases hp
  · cases hp
  · rename_i b hl hh
    obtain ⟨⟨b1, d⟩, h1, hp⟩ := bind_eq_ok.1 hp
    obtain ⟨b2, h2, hp⟩ := bind_eq_ok.1 hp
    have hs := header_size hh
    obtain ⟨d1, d2⟩ := start_size hs h1
    have ho : Offset b2 d := by
      rw [big_two] at h2
      have := holds_iff.1 (poke_holds h2)
      exact ⟨this 0 (by decide : 0 < 2), this 1 (by decide : 1 < 2)⟩
    exact ⟨b, hl, d, hh, hs, d1, d2, loop_good (by omega) rounds ho hp r hr⟩

theorem offset_tells {r : List UInt8} {d : Nat} (h : Offset r d) : Tells r (d % 65536) := by
  refine ⟨_, _, h.1, h.2, ?_⟩
  rw [UInt8.toNat_ofNat', UInt8.toNat_ofNat']
  omega

theorem tells_unique {r : List UInt8} {d e : Nat} (h : Tells r d) (g : Tells r e) : d = e := by
  obtain ⟨x, y, h1, h2, h3⟩ := h
  obtain ⟨x', y', g1, g2, g3⟩ := g
  rw [h1] at g1
  rw [h2] at g2
  injection g1 with g1
  injection g2 with g2
  rw [← h3, ← g3, g1, g2]

/-- **C143** (part).  The header of every record of version 2 with samples tells where the samples are: from the offset
in bytes 44 and 45 on the record has what the encoder made of the samples from some number on.

Missing: headers longer than 65472 bytes, `C143_long_header_violated`. -/
theorem C143_offset_partial (rates : Rates) (json : List UInt8 → Option Extra) (sampletime : Int → Nat → Nat → Out Int)
    (hostBE : Bool) (msr : Msr) (flush : Bool) (junk : List UInt8) (rounds : Nat) (p : Packing)
    (hp : packMseed2 rates json sampletime hostBE msr flush junk rounds = .ok p) (hc : msr.samples.count ≠ 0)
    (hh : ∀ b hl, packHeader2 rates json hostBE msr (List.replicate 48 0 ++ junk.take ((packReclen msr.reclen).toNat - 48))
      (packReclen msr.reclen).toNat = .ok (b, hl) → hl ≤ 65472)
    (r : List UInt8) (hr : r ∈ p.records) :
    ∃ d k data n, 56 ≤ d ∧ Tells r d ∧ packData hostBE (!hostBE) (passed (dropSamples k msr.samples))
      ((packReclen msr.reclen).toNat - d) (packEncoding msr.encoding) = .ok (data, n) ∧ Holds r data d := by
  obtain ⟨b, hl, d, h1, h2, h3, h4, g, k, data, n, h5, h6⟩ :=
    records_good rates json sampletime hostBE msr flush junk rounds p hp hc r hr
  have := hh b hl h1
  have t := offset_tells g
  rw [Nat.mod_eq_of_lt (by omega)] at t
  exact ⟨d, k, data, n, by omega, t, h5, h6⟩

/-- **C143** is violated.  With a header of 65536 bytes or more, which extra headers with many entries need, the offset
does not fit its two bytes: every record is packed, has its samples after the header, and tells that they are elsewhere,
65536 bytes before. -/
theorem C143_long_header_violated (rates : Rates) (json : List UInt8 → Option Extra)
    (sampletime : Int → Nat → Nat → Out Int) (hostBE : Bool) (msr : Msr) (flush : Bool) (junk : List UInt8)
    (rounds : Nat) (p : Packing)
    (hp : packMseed2 rates json sampletime hostBE msr flush junk rounds = .ok p) (hc : msr.samples.count ≠ 0)
    (b : List UInt8) (hl : Nat)
    (hh : packHeader2 rates json hostBE msr (List.replicate 48 0 ++ junk.take ((packReclen msr.reclen).toNat - 48))
      (packReclen msr.reclen).toNat = .ok (b, hl)) (hl' : 65536 ≤ hl)
    (r : List UInt8) (hr : r ∈ p.records) :
    ∃ d k data n, hl ≤ d ∧ packData hostBE (!hostBE) (passed (dropSamples k msr.samples))
      ((packReclen msr.reclen).toNat - d) (packEncoding msr.encoding) = .ok (data, n) ∧ Holds r data d ∧
      ¬ Tells r d ∧ Tells r (d % 65536) := by
  obtain ⟨b', hl2, d, h1, h2, h3, h4, g, k, data, n, h5, h6⟩ :=
    records_good rates json sampletime hostBE msr flush junk rounds p hp hc r hr
  rw [hh] at h1
  injection h1 with h1
  injection h1 with _ h1
  subst h1
  refine ⟨d, k, data, n, h3, h5, h6, ?_, offset_tells g⟩
  intro t
  have := tells_unique t (offset_tells g)
  omega

/-- One character in a record of 131072 bytes. -/
def wide : Msr := { plain with reclen := 131072, encoding := 0, samples := .text [65] }

/-- A header with any number of blockettes is packed, with a sample behind it. -/
theorem late_ok (sampletime : Int → Nat → Nat → Out Int) (k L : Nat) (msr : Msr) (junk : List UInt8)
    (hsid : msr.sid = plain.sid) (htime : msr.starttime = plain.starttime) (hextra : msr.extra = plain.extra)
    (hr : ¬ (packReclen msr.reclen < 128 ∨ packReclen msr.reclen > 10485760)) (hrL : (packReclen msr.reclen).toNat = L)
    (h2 : L &&& (L - 1) = 0) (hL : L ≤ 131172) (he : packEncoding msr.encoding = 0) (hs : msr.samples = .text [65])
    (hk : 57 + 16 * k < L) (hj : L ≤ junk.length) :
    ∃ p b, packMseed2 one (beams k) sampletime false msr true junk 1 = .ok p ∧ p.records ≠ [] ∧
      packHeader2 one (beams k) false msr (List.replicate 48 0 ++ junk.take (L - 48)) L = .ok (b, 56 + 16 * k) := by
  have hl : 128 ≤ L := by omega
  generalize hJ : List.replicate 48 (0 : UInt8) ++ junk.take (L - 48) = J
  have lJ : J.length = L := by
    rw [← hJ, List.length_append, List.length_take, List.length_replicate]; omega
  obtain ⟨b, hb, lb⟩ := beams_ok k L msr J hsid htime hextra hr (by rw [hrL, h2]; decide) (by omega) (by omega) lJ
  generalize hD : 56 + 16 * k = D at hb
  have hd : dataStart b 0 D = .ok (b, D) := rfl
  obtain ⟨b1, h1⟩ : ∃ m, pokes b [(44, big false 2 D)] = .ok m := by
    apply pokes_ne_oob
    intro w hw
    rw [List.mem_singleton.1 hw, big_two]
    show 44 + 2 ≤ b.length
    omega
  obtain ⟨b2, h2'⟩ : ∃ m, pokes b1 [(D, [65]), (30, big false 2 1), (D + 1, List.replicate (L - (D + 1)) 0)] = .ok m := by
    have := pokes_length h1
    apply pokes_ne_oob
    intro w hw
    simp only [List.mem_cons, List.not_mem_nil, or_false] at hw
    rcases hw with e | e | e <;> subst e <;> simp only [big_two, List.length_cons, List.length_nil, List.length_replicate] <;> omega
  refine ⟨{ records := [b2], packed := 1, ret := 1 }, b, ?_, by simp, hb⟩
  have h1' : poke b 44 (big false 2 D) = .ok b1 := by
    obtain ⟨x, e, h⟩ := bind_eq_ok.1 h1
    injection h with h
    rw [e, h]
  have h3 : finishRecord2 false b1 L D [65] 1 = .ok b2 := by
    obtain ⟨x, e, h⟩ := bind_eq_ok.1 h2'
    obtain ⟨y, e2, h⟩ := bind_eq_ok.1 h
    obtain ⟨z, e3, h⟩ := bind_eq_ok.1 h
    injection h with h
    unfold finishRecord2
    rw [e, bind_ok, e2, bind_ok]
    simp only [List.length_cons, List.length_nil, Nat.zero_add]
    rw [if_pos (by omega), e3, h]
  have hp : packData false true (passed (dropSamples 0 (.text [65]))) (L - D) 0 = .ok ([65], 1) := by
    obtain ⟨x, hx⟩ : ∃ x, L - D = x + 2 := ⟨L - D - 2, by omega⟩
    rw [hx]
    have : passed (dropSamples 0 (.text [65])) = .text [65] := by decide +kernel
    rw [this]
    simp [packData, encodeText]
  have hq : packRound2 (fun offset => sampletime msr.starttime offset msr.samprate) false msr.samples 0 L D b1 0 =
      .ok (.stop { records := [b2], packed := 1, ret := 1 }) := by
    unfold packRound2
    rw [hs, show (!false) = true from rfl, hp]
    dsimp only
    rw [if_neg (by decide), h3, bind_ok, if_pos (by decide)]
  unfold packMseed2
  dsimp only
  rw [hrL, he, if_neg (by omega), if_neg (by rw [h2]; decide), hJ, hb]
  dsimp only
  rw [if_neg (by rw [hs]; decide), hd, bind_ok]
  dsimp only
  rw [h1', bind_ok]
  unfold packLoop2
  rw [if_pos (Or.inr rfl), hq, bind_ok]

/-- A header of 65656 bytes is packed, with a sample behind it. -/
example (sampletime : Int → Nat → Nat → Out Int) (junk : List UInt8) (hj : 131072 ≤ junk.length) :
    ∃ p b, packMseed2 one (beams 4100) sampletime false wide true junk 1 = .ok p ∧ p.records ≠ [] ∧
      packHeader2 one (beams 4100) false wide (List.replicate 48 0 ++ junk.take (131072 - 48)) 131072 =
        .ok (b, 56 + 16 * 4100) :=
  late_ok sampletime 4100 131072 wide junk rfl rfl rfl (by decide +kernel) (by decide +kernel) (by decide +kernel)
    (by decide) (by decide +kernel) rfl (by decide) hj

/-- A short record that tells its offset. -/
example : (match packMseed2 one (beams 1) (fun t _ _ => .ok t) false { wide with reclen := 128 } true
    (List.replicate 128 7) 3 with
    | .ok p => p.records.map fun r => (r[44]?, r[45]?, r[72]?)
    | _ => []) = [(some 0, some 72, some 65)] := by decide +kernel

end Verif.Props.DataOffset
