import Verif.Model.Pack2
import Verif.Props.Record2Defs
import Verif.Proof.PackRead
/-!
# Lemmas about packing version 2 records: the header
-/
namespace Verif.Proof.Pack2
open Verif.Model Verif.Model.Bytes Verif.Model.Steim Verif.Model.Samples Verif.Model.Mem
  Verif.Model.Record3 Verif.Model.Pack Verif.Model.Pack2
open Verif.Spec Verif.Spec.Record2 Verif.Spec.Detect
open Verif.Spec.Record3 (le)
open Verif.Proof.Mem Verif.Proof.Record2
open Verif.Proof.Record3 (le_eq store_byte)
open Verif.Proof.Bytes

/-! ## Writes -/

theorem big_eq (h : Bool) (n v : Nat) : big h n v = num true n v := by
  unfold big store num
  rw [le_eq]
  cases h <;> simp [swapIf, hostBytes]

theorem byte_eq (h : Bool) (v : Nat) : store h false 1 v = [UInt8.ofNat v] := by
  rw [store_byte]
  simp only [le, List.cons.injEq, and_true]
  apply UInt8.toNat_inj.1
  simp

theorem bits_twos2 (x : Int) : bits 16 x = twos 2 x := rfl

theorem bits_twos4 (x : Int) : bits 32 x = twos 4 x := rfl

/-- Writes one after the other from `off` on. -/
def Contig : Nat → List (Nat × List UInt8) → Prop
  | _, [] => True
  | off, (o, b) :: ws => o = off ∧ Contig (off + b.length) ws

/-- What is written. -/
def written (ws : List (Nat × List UInt8)) : List UInt8 := (ws.map (·.2)).flatten

theorem written_cons (o : Nat) (b : List UInt8) (ws : List (Nat × List UInt8)) :
    written ((o, b) :: ws) = b ++ written ws := rfl

theorem written_append (ws vs : List (Nat × List UInt8)) :
    written (ws ++ vs) = written ws ++ written vs := by
  simp [written]

theorem contig_append : ∀ (ws vs : List (Nat × List UInt8)) (off : Nat), Contig off ws →
    Contig (off + (written ws).length) vs → Contig off (ws ++ vs) := by
  intro ws
  induction ws with
  | nil => intro vs off _ h; simpa [written] using h
  | cons w ws ih =>
    obtain ⟨o, b⟩ := w
    intro vs off h1 h2
    refine ⟨h1.1, ih vs _ h1.2 ?_⟩
    rw [written_cons, List.length_append, ← Nat.add_assoc] at h2
    exact h2

theorem pokes_contig : ∀ (ws : List (Nat × List UInt8)) (a c : List UInt8), Contig a.length ws →
    (written ws).length ≤ c.length →
    pokes (a ++ c) ws = .ok (a ++ (written ws ++ c.drop (written ws).length)) := by
  intro ws
  induction ws with
  | nil => intro a c _ _; simp [pokes, written]
  | cons w ws ih =>
    obtain ⟨o, b⟩ := w
    intro a c h1 h2
    obtain ⟨rfl, h1⟩ := h1
    rw [written_cons, List.length_append] at h2
    rw [pokes, poke_append' (by omega), bind_ok, ih (a ++ b) (c.drop b.length)
      (by rw [List.length_append]; exact h1) (by simp; omega), written_cons, List.drop_drop]
    simp only [List.append_assoc, List.length_append]

/-- Writing one of the pieces. -/
theorem poke_pieces (ps : List (List UInt8)) (t b : List UInt8) (i : Nat) (hi : i < ps.length)
    (hb : b.length = ps[i].length) :
    poke (ps.flatten ++ t) ((ps.take i).map List.length).sum b = .ok ((ps.set i b).flatten ++ t) := by
  have e : ps.flatten ++ t = (ps.take i).flatten ++ ps[i] ++ ((ps.drop (i + 1)).flatten ++ t) := by
    have e : ps = ps.take i ++ (ps[i] :: ps.drop (i + 1)) := by
      rw [← List.drop_eq_getElem_cons hi, List.take_append_drop]
    have e2 := congrArg List.flatten e
    rw [List.flatten_append, List.flatten_cons] at e2
    rw [e2]
    simp only [List.append_assoc]
  have e3 : (ps.set i b).flatten ++ t = (ps.take i).flatten ++ b ++ ((ps.drop (i + 1)).flatten ++ t) := by
    rw [List.set_eq_take_append_cons_drop, if_pos hi, List.flatten_append, List.flatten_cons]
    simp only [List.append_assoc]
  rw [e, e3, ← List.length_flatten]
  exact poke_append hb.symm

/-- The codes fit their places. -/
structure Shape (r : Rec) : Prop where
  seq : r.seq.length = 6
  sta : r.sta.length ≤ 5
  loc : r.loc.length ≤ 2
  net : r.net.length ≤ 2

theorem pieces_lengths (r : Rec) (s : Shape r) : (pieces r).map List.length =
    [6, 1, 1, 5, 2, 3, 2, 2, 2, 1, 1, 1, 1, 2, 2, 2, 2, 1, 1, 1, 1, 4, 2, 2] := by
  simp [pieces, num_length, padded_length s.sta, padded_length s.loc, padded_length s.net, s.seq]

theorem fixed_length' (r : Rec) (s : Shape r) : r.fixed.length = 48 := by
  rw [fixed_eq, List.length_flatten, pieces_lengths r s]; rfl

theorem poke_piece (r : Rec) (s : Shape r) (t b : List UInt8) (i off : Nat) (hi : i < 24)
    (hb : b.length = ((pieces r)[i]'(by rw [pieces_length]; exact hi)).length)
    (ho : (([6, 1, 1, 5, 2, 3, 2, 2, 2, 1, 1, 1, 1, 2, 2, 2, 2, 1, 1, 1, 1, 4, 2, 2] : List Nat).take
      i).sum = off) : poke (r.fixed ++ t) off b = .ok (((pieces r).set i b).flatten ++ t) := by
  have h := poke_pieces (pieces r) t b i (by rw [pieces_length]; exact hi) hb
  rw [List.map_take, pieces_lengths r s, ho] at h
  rw [fixed_eq]
  exact h

/-- A record with another time, number of samples and content. -/
def variant (q : Rec) (t : DateTime) (n : Nat) (rest : List UInt8) : Rec :=
  { q with year := t.year.toNat, day := t.yday.toNat, hour := t.hour.toNat, minute := t.min.toNat,
           second := t.sec.toNat, fract := t.nsec.toNat / 100000, numsamples := n, rest := rest }

theorem poke_n (h : Bool) (q : Rec) (s : Shape q) (hbe : q.be = true) (n : Nat) (t : List UInt8) :
    poke (q.fixed ++ t) 30 (big h 2 n) = .ok (({ q with numsamples := n } : Rec).fixed ++ t) := by
  rw [poke_piece q s t _ 14 30 (by omega) (by rw [big_eq, num_length]; simp [pieces, num_length]) rfl,
    fixed_eq, big_eq, ← hbe]
  rfl

theorem poke_offset (h : Bool) (q : Rec) (s : Shape q) (hbe : q.be = true) (n : Nat) (t : List UInt8) :
    poke (q.fixed ++ t) 44 (big h 2 n) = .ok (({ q with dataoffset := n } : Rec).fixed ++ t) := by
  rw [poke_piece q s t _ 22 44 (by omega) (by rw [big_eq, num_length]; simp [pieces, num_length]) rfl,
    fixed_eq, big_eq, ← hbe]
  rfl

theorem poke_time2 (h : Bool) (q : Rec) (s : Shape q) (hbe : q.be = true) (dt : DateTime)
    (t : List UInt8) : pokes (q.fixed ++ t) (timeWrites2 h dt) =
      .ok ((variant q dt q.numsamples q.rest).fixed ++ t) := by
  unfold timeWrites2
  simp only [pokes]
  have p1 := poke_piece q s t (big h 2 dt.year.toNat) 7 20 (by omega)
    (by rw [big_eq, num_length]; simp [pieces, num_length]) rfl
  have e1 : ((pieces q).set 7 (big h 2 dt.year.toNat)).flatten =
      ({ q with year := dt.year.toNat } : Rec).fixed := by rw [fixed_eq, big_eq, ← hbe]; rfl
  rw [p1, bind_ok, e1]
  have p2 := poke_piece ({ q with year := dt.year.toNat } : Rec) ⟨s.1, s.2, s.3, s.4⟩ t
    (big h 2 dt.yday.toNat) 8 22 (by omega) (by rw [big_eq, num_length]; simp [pieces, num_length]) rfl
  have e2 : ((pieces { q with year := dt.year.toNat }).set 8 (big h 2 dt.yday.toNat)).flatten =
      ({ q with year := dt.year.toNat, day := dt.yday.toNat } : Rec).fixed := by
    rw [fixed_eq, big_eq, ← hbe]; rfl
  rw [p2, bind_ok, e2]
  have p3 := poke_piece ({ q with year := dt.year.toNat, day := dt.yday.toNat } : Rec)
    ⟨s.1, s.2, s.3, s.4⟩ t (store h false 1 dt.hour.toNat) 9 24 (by omega)
    (by rw [byte_eq]; rfl) rfl
  have e3 : ((pieces { q with year := dt.year.toNat, day := dt.yday.toNat }).set 9
      (store h false 1 dt.hour.toNat)).flatten =
      ({ q with year := dt.year.toNat, day := dt.yday.toNat, hour := dt.hour.toNat } : Rec).fixed := by
    rw [fixed_eq, byte_eq]; rfl
  rw [p3, bind_ok, e3]
  have p4 := poke_piece ({ q with year := dt.year.toNat, day := dt.yday.toNat,
                                  hour := dt.hour.toNat } : Rec)
    ⟨s.1, s.2, s.3, s.4⟩ t (store h false 1 dt.min.toNat) 10 25 (by omega)
    (by rw [byte_eq]; rfl) rfl
  have e4 : ((pieces { q with year := dt.year.toNat, day := dt.yday.toNat,
                              hour := dt.hour.toNat }).set 10
      (store h false 1 dt.min.toNat)).flatten =
      ({ q with year := dt.year.toNat, day := dt.yday.toNat, hour := dt.hour.toNat,
                minute := dt.min.toNat } : Rec).fixed := by
    rw [fixed_eq, byte_eq]; rfl
  rw [p4, bind_ok, e4]
  have p5 := poke_piece ({ q with year := dt.year.toNat, day := dt.yday.toNat,
                                  hour := dt.hour.toNat, minute := dt.min.toNat } : Rec)
    ⟨s.1, s.2, s.3, s.4⟩ t (store h false 1 dt.sec.toNat) 11 26 (by omega)
    (by rw [byte_eq]; rfl) rfl
  have e5 : ((pieces { q with year := dt.year.toNat, day := dt.yday.toNat,
                              hour := dt.hour.toNat, minute := dt.min.toNat }).set 11
      (store h false 1 dt.sec.toNat)).flatten =
      ({ q with year := dt.year.toNat, day := dt.yday.toNat, hour := dt.hour.toNat,
                minute := dt.min.toNat, second := dt.sec.toNat } : Rec).fixed := by
    rw [fixed_eq, byte_eq]; rfl
  rw [p5, bind_ok, e5]
  have p6 := poke_piece ({ q with year := dt.year.toNat, day := dt.yday.toNat,
                                  hour := dt.hour.toNat, minute := dt.min.toNat,
                                  second := dt.sec.toNat } : Rec)
    ⟨s.1, s.2, s.3, s.4⟩ t (big h 2 (dt.nsec.toNat / 100000)) 13 28 (by omega)
    (by rw [big_eq, num_length]; simp [pieces, num_length]) rfl
  have e6 : ((pieces { q with year := dt.year.toNat, day := dt.yday.toNat,
                              hour := dt.hour.toNat, minute := dt.min.toNat,
                              second := dt.sec.toNat }).set 13
      (big h 2 (dt.nsec.toNat / 100000))).flatten =
      (variant q dt q.numsamples q.rest).fixed := by
    rw [fixed_eq, big_eq, ← hbe]; rfl
  rw [p6, bind_ok, e6]

/-! ## The codes -/

theorem openField_eq (c : List UInt8) (n : Nat) (hc : Code c) (hn : c.length ≤ n) :
    openField c n = .ok (padded n c) := by
  obtain ⟨k, hk, he, _⟩ := Props.Str.C12_strncpopen c [0] n
    ⟨code_ne_zero hc, Or.inr (Or.inl ⟨[], rfl⟩)⟩
  have hkn : k = c.length := by
    have h1 := hk.2.2.2 c.length (by simp; omega) (by omega) (wellFormed_ascii _ fun x hx => by
      have := hc x (List.mem_of_mem_take hx); omega)
    have h2 := hk.2.1
    omega
  subst hkn
  unfold openField
  rw [he]
  simp [ofMem, bind_ok, padded]

/-- A code that can be part of an identifier: printable, no space, colon or underscore. -/
def Plain (c : List UInt8) : Prop := Code c ∧ ∀ x ∈ c, x ≠ 95 ∧ x ≠ 58

instance (c : List UInt8) : Decidable (Plain c) := by unfold Plain; infer_instance

theorem plain_ok {c : List UInt8} (h : Plain c) : Props.Str.CodeOK c := fun b hb =>
  ⟨code_ne_zero h.1 b hb, (h.2 b hb).1, (h.2 b hb).2⟩

/-- The identifier names these codes. -/
structure Names (sid net sta loc : List UInt8) (band source position : UInt8) : Prop where
  text : sid = [70, 68, 83, 78, 58] ++ net ++ [95] ++ sta ++ [95] ++ loc ++ [95] ++
    [band, 95, source, 95, position]
  net : Plain net ∧ net.length ≤ 2
  sta : Plain sta ∧ sta.length ≤ 5
  loc : Plain loc ∧ loc.length ≤ 2
  chan : Plain [band, source, position]

theorem names_sid {sid net sta loc : List UInt8} {b s p : UInt8} (hn : Names sid net sta loc b s p) :
    Str.sid2nslc sid = some ⟨net, sta, loc, some [b, s, p]⟩ ∧ ∀ x ∈ sid, x ≠ 0 := by
  have l1 := hn.net.2
  have l2 := hn.sta.2
  have l3 := hn.loc.2
  obtain ⟨sid', -, h2, h3⟩ := Props.Str.C10_sid_round_trip 64 net sta (some loc) b s p (by omega)
    (plain_ok hn.net.1) (plain_ok hn.sta.1) (plain_ok hn.loc.1) (plain_ok hn.chan)
    (by simp only [Option.getD_some]; omega)
  have e : sid = sid' := by rw [h2, hn.text]; simp [Props.Str.sidText]
  refine ⟨by rw [e]; exact h3, ?_⟩
  have c1 := code_ne_zero hn.net.1.1
  have c2 := code_ne_zero hn.sta.1.1
  have c3 := code_ne_zero hn.loc.1.1
  have c4 := code_ne_zero hn.chan.1
  intro x hx
  rw [hn.text] at hx
  simp only [List.mem_append, List.mem_cons, List.not_mem_nil, or_false] at hx
  have d1 := c4 b (by simp)
  have d2 := c4 s (by simp)
  have d3 := c4 p (by simp)
  rcases hx with ((((((hx | hx) | hx) | hx) | hx) | hx) | hx) | hx
  · rcases hx with rfl | rfl | rfl | rfl | rfl <;> decide
  · exact c1 x hx
  · subst hx; decide
  · exact c2 x hx
  · subst hx; decide
  · exact c3 x hx
  · subst hx; decide
  · rcases hx with rfl | rfl | rfl | rfl | rfl <;> first | assumption | decide

theorem codes_eq {sid net sta loc : List UInt8} {b s p : UInt8} (hn : Names sid net sta loc b s p) :
    codes (sid.takeWhile (· != 0)) =
      .ok { sta := padded 5 sta, loc := padded 2 loc, chan := [b, s, p], net := padded 2 net } := by
  obtain ⟨h1, h2⟩ := names_sid hn
  have e : sid.takeWhile (· != 0) = sid := by
    have := takeWhile_all h2 []
    rw [List.takeWhile_append] at this
    split at this
    · next h => exact List.Sublist.eq_of_length (List.takeWhile_sublist _) h
    · exact this
  have l1 := hn.net.2
  have l2 := hn.sta.2
  have l3 := hn.loc.2
  rw [e]
  unfold codes
  rw [h1]
  simp only
  rw [if_neg (by simp; omega), openField_eq _ _ hn.sta.1.1 l2, bind_ok, openField_eq _ _ hn.loc.1.1 l3,
    bind_ok, openField_eq _ _ hn.chan.1 (by simp), bind_ok, openField_eq _ _ hn.net.1.1 l1, bind_ok]
  rfl

theorem exp_ok (k : Nat) (h : 7 ≤ k ∧ k ≤ 17) :
    2 ^ k &&& (2 ^ k - 1) = 0 ∧ expLoop (2 ^ k) 25 1 1 = k ∧ 128 ≤ 2 ^ k ∧ 2 ^ k ≤ 131072 := by
  have : ∀ k ∈ [7, 8, 9, 10, 11, 12, 13, 14, 15, 16, 17],
      2 ^ k &&& (2 ^ k - 1) = 0 ∧ expLoop (2 ^ k) 25 1 1 = k ∧ 128 ≤ 2 ^ k ∧ 2 ^ k ≤ 131072 := by
    decide
  apply this
  simp only [List.mem_cons, List.not_mem_nil, or_false]
  omega

/-! ## The header -/

/-- What goes into the header besides the identifier. -/
structure Head where
  time : DateTime
  factor : Int
  multiplier : Int
  extra : Extra
  poor : Bool
  float : Nat
  exponent : Nat
  /-- the blockettes that entries of the extra headers become -/
  more : List Mapped := []

/-- There is a blockette 1001. -/
def Head.timed (d : Head) : Bool := d.extra.timing.isSome || decide (microOffset d.time ≠ 0)

/-- The stored timing quality. -/
def Head.timing (d : Head) : Nat :=
  match d.extra.timing with | some q => if q ≤ 255 then q else 0 | none => 0

/-- The blockettes 1000, 1001 and 100. -/
def Head.base (d : Head) (encoding : Nat) : List (Blkt × List UInt8) :=
  (.data (UInt8.ofNat encoding) 1 (UInt8.ofNat d.exponent) 0, []) ::
  ((if d.timed then [(.timing (UInt8.ofNat d.timing) (microOffset d.time) 0 0, [])] else []) ++
   (if d.poor then [(.rate d.float [0, 0, 0, 0], [])] else []))

/-- Blockettes one after another. -/
def chained (ms : List Mapped) : List (Blkt × List UInt8) := ms.map fun m => (.mapped m, [])

/-- The blockettes. -/
def Head.chain (d : Head) (encoding : Nat) : List (Blkt × List UInt8) := d.base encoding ++ chained d.more

/-- The number of blockettes 1000, 1001 and 100. -/
def Head.few (d : Head) : Nat := 1 + (if d.timed then 1 else 0) + (if d.poor then 1 else 0)

/-- The record of the header. -/
def headRec (m : Msr) (net sta loc : List UInt8) (band source position : UInt8) (d : Head)
    (rest : List UInt8) : Rec :=
  { be := true, seq := [48, 48, 48, 48, 48, 48], quality := qualityByte m.pubversion d.extra,
    reserved := 32, sta := sta, loc := loc, band := band, source := source, position := position,
    net := net, year := d.time.year.toNat, day := d.time.yday.toNat, hour := d.time.hour.toNat,
    minute := d.time.min.toNat, second := d.time.sec.toNat, unused := 0,
    fract := d.time.nsec.toNat / 100000, numsamples := 0, factor := d.factor,
    multiplier := d.multiplier, activity := UInt8.ofNat (actFlags m.flags d.extra),
    io := UInt8.ofNat (ioFlags m.flags d.extra), dq := UInt8.ofNat (dqFlags m.flags d.extra),
    numblockettes := UInt8.ofNat (d.few + d.more.length),
    correction := d.extra.correction.getD 0, dataoffset := 0,
    chain := d.chain (packEncoding m.encoding), rest := rest }

/-- The size of the header without blockettes of entries. -/
def Head.baseSize (d : Head) : Nat := 56 + (if d.timed then 8 else 0) + (if d.poor then 12 else 0)

/-- The size of blockettes. -/
def total (ms : List Mapped) : Nat := (ms.map fun m => (Blkt.mapped m).size).sum

/-- The size of the header. -/
def Head.size (d : Head) : Nat := d.baseSize + total d.more

theorem base_size (d : Head) (enc : Nat) :
    48 + (chainBytes true 48 (d.base enc)).length = d.baseSize := by
  unfold Head.base Head.baseSize
  cases d.timed <;> cases d.poor <;>
    simp [chainBytes, num_length, Blkt.body]

theorem micro_lt (t : DateTime) : microOffset t < 100 := by
  unfold microOffset; omega

theorem twos_micro (t : DateTime) : UInt8.ofNat (twos 1 (microOffset t)) = UInt8.ofNat (microOffset t) := by
  have := micro_lt t
  unfold twos
  congr 1
  omega

theorem written_chain (rates : Rates) (h : Bool) (m : Msr) (d : Head)
    (hf : d.float = rates.narrow m.samprate) :
    written (chainWrites rates h m d.exponent d.time d.extra d.timed d.poor) =
      chainBytes true 48 (d.base (packEncoding m.encoding)) := by
  unfold Head.base chainWrites
  rw [hf]
  cases d.timed <;> cases d.poor <;>
    simp [written, b1000Writes, b1001Writes, b100Writes, chainBytes, Blkt.body, Blkt.type, Blkt.size,
      big_eq, byte_eq, twos_micro, Head.timing] <;> rfl

/-! ### Blockettes of entries -/

/-- Type and link of a blockette that is the last one, and what follows. -/
def block (b : Blkt) : List UInt8 := num true 2 b.type ++ num true 2 0 ++ b.body true

/-- The steps make these blockettes: the writes of each, made in a blockette of zeros, give its bytes, and no
more room is asked for than is needed. -/
inductive Stores : List Step → List Mapped → Prop where
  | nil : Stores [] []
  | room (n : Nat) (ss : List Step) (ms : List Mapped) : n ≤ total ms → Stores ss ms →
      Stores (.room n :: ss) ms
  | add (m : Mapped) (ws : List (Nat × Res (List UInt8))) (ss : List Step) (ms : List Mapped) :
      writeAll 0 (num true 2 m.type ++ num true 2 0 ++ List.replicate ((Blkt.mapped m).size - 4) 0) ws =
        .ok (block (.mapped m)) →
      Stores ss ms → Stores (.add m.type (Blkt.mapped m).size ws :: ss) (m :: ms)

theorem poke_length' {mem mem' b : List UInt8} {off : Nat} (h : poke mem off b = .ok mem') :
    mem'.length = mem.length ∧ off + b.length ≤ mem.length := by
  unfold poke at h
  split at h
  · cases h
    refine ⟨?_, by assumption⟩
    simp; omega
  · cases h

theorem writeAll_length : ∀ (ws : List (Nat × Res (List UInt8))) (base : Nat) (mem mem' : List UInt8),
    writeAll base mem ws = .ok mem' → mem'.length = mem.length := by
  intro ws
  induction ws with
  | nil => intro base mem mem' h; cases h; rfl
  | cons w ws ih =>
    obtain ⟨off, v⟩ := w
    intro base mem mem' h
    rw [writeAll] at h
    obtain ⟨b, _, h⟩ := bind_eq_ok.1 h
    obtain ⟨m2, h2, h⟩ := bind_eq_ok.1 h
    rw [ih _ _ _ h, (poke_length' h2).1]

/-- Writing into a part of the memory. -/
theorem poke_window {a z z' c b : List UInt8} {off : Nat} (h : poke z off b = .ok z') :
    poke (a ++ z ++ c) (a.length + off) b = .ok (a ++ z' ++ c) := by
  have hl := (poke_length' h).2
  unfold poke at h ⊢
  rw [if_pos hl] at h
  cases h
  rw [if_pos (by simp; omega)]
  congr 1
  rw [List.append_assoc a z c, List.take_append, List.take_of_length_le (by omega), Nat.add_sub_cancel_left,
    List.take_append_of_le_length (by omega), List.drop_append, List.drop_of_length_le (by omega),
    show a.length + off + b.length - a.length = off + b.length by omega, List.drop_append_of_le_length hl]
  simp only [List.append_assoc, List.nil_append]

theorem writeAll_window : ∀ (ws : List (Nat × Res (List UInt8))) (a z z' c : List UInt8),
    writeAll 0 z ws = .ok z' → writeAll a.length (a ++ z ++ c) ws = .ok (a ++ z' ++ c) := by
  intro ws
  induction ws with
  | nil => intro a z z' c h; cases h; rfl
  | cons w ws ih =>
    obtain ⟨off, v⟩ := w
    intro a z z' c h
    rw [writeAll] at h ⊢
    obtain ⟨b, hv, h⟩ := bind_eq_ok.1 h
    obtain ⟨m2, h2, h⟩ := bind_eq_ok.1 h
    rw [Nat.zero_add] at h2
    rw [hv, bind_ok, poke_window h2, bind_ok]
    exact ih _ _ _ _ h

/-- The bytes of a chain when another blockette follows. -/
def linked : Nat → List (Blkt × List UInt8) → List UInt8
  | _, [] => []
  | off, (b, pad) :: bs =>
    num true 2 b.type ++ num true 2 (off + b.size + pad.length) ++ b.body true ++ pad ++
      linked (off + b.size + pad.length) bs

/-- The sizes are those of the bytes. -/
def Sized (c : List (Blkt × List UInt8)) : Prop := ∀ b ∈ c, 4 + (b.1.body true).length = b.1.size

theorem chain_snoc : ∀ (c : List (Blkt × List UInt8)) (off : Nat) (x : Blkt × List UInt8), Sized c →
    chainBytes true off (c ++ [x]) =
      linked off c ++ (block x.1 ++ x.2) := by
  intro c
  induction c with
  | nil => intro off x _; simp [chainBytes, linked, block]
  | cons y c ih =>
    obtain ⟨b, pad⟩ := y
    intro off x hs
    rw [List.cons_append, chainBytes, if_neg (by simp), ih _ _ (fun z hz => hs z (List.mem_cons_of_mem _ hz)), linked]
    simp only [List.append_assoc]

theorem linked_snoc : ∀ (c : List (Blkt × List UInt8)) (off : Nat) (x : Blkt × List UInt8), Sized c →
    linked off (c ++ [x]) = linked off c ++ (num true 2 x.1.type ++
      num true 2 (off + (linked off c).length + x.1.size + x.2.length) ++ x.1.body true ++ x.2) := by
  intro c
  induction c with
  | nil => intro off x _; simp [linked]
  | cons y c ih =>
    obtain ⟨b, pad⟩ := y
    intro off x hs
    have hb := hs (b, pad) (List.mem_cons_self ..)
    rw [List.cons_append, linked, ih _ _ (fun z hz => hs z (List.mem_cons_of_mem _ hz)), linked]
    simp only [List.append_assoc, List.length_append, num_length]
    simp only at hb
    rw [show off + (2 + (2 + ((b.body true).length + (pad.length +
        (linked (off + b.size + pad.length) c).length)))) + x.1.size + x.2.length =
      off + b.size + pad.length + (linked (off + b.size + pad.length) c).length + x.1.size + x.2.length by
      omega]

theorem num2_mod (v : Nat) : num true 2 (v % 65536) = num true 2 v := by
  unfold num
  simp only [if_true, Verif.Spec.Record3.le]
  rw [show v % 65536 % 256 = v % 256 by omega, show v % 65536 / 256 % 256 = v / 256 % 256 by omega]

theorem poke_count (h : Bool) (q : Rec) (s : Shape q) (n : Nat) (t : List UInt8) :
    poke (q.fixed ++ t) 39 (store h false 1 n) =
      .ok (({ q with numblockettes := UInt8.ofNat n } : Rec).fixed ++ t) := by
  rw [poke_piece q s t _ 20 39 (by omega) (by rw [byte_eq]; rfl) rfl, fixed_eq, byte_eq]
  rfl

theorem ofNat_mod (n : Nat) : UInt8.ofNat (n % 256) = UInt8.ofNat n := by
  apply UInt8.toNat_inj.1
  simp

theorem replicate4 (n : Nat) (h : 4 ≤ n) : List.replicate n (0 : UInt8) =
    [0, 0] ++ ([0, 0] ++ List.replicate (n - 4) 0) := by
  obtain ⟨k, rfl⟩ : ∃ k, n = 2 + (2 + k) := ⟨n - 4, by omega⟩
  rw [show ([0, 0] : List UInt8) = List.replicate 2 0 from rfl, List.replicate_append_replicate,
    List.replicate_append_replicate, show 2 + (2 + k) - 4 = k by omega]

/-- A blockette of zeros but for its type. -/
theorem pokes_block (h : Bool) (A rest : List UInt8) (type size : Nat) (h4 : 4 ≤ size) (hr : size ≤ rest.length) :
    pokes (A ++ rest) [(A.length, List.replicate size 0), (A.length, big h 2 type), (A.length + 2, big h 2 0)] =
      .ok (A ++ (num true 2 type ++ num true 2 0 ++ List.replicate (size - 4) 0) ++ rest.drop size) := by
  have p3 := poke_append' (a := A) (c := rest) (d := List.replicate size 0) (by simpa using hr)
  rw [List.length_replicate] at p3
  have p4 := poke_append (a := A) (b := [0, 0]) (c := [0, 0] ++ List.replicate (size - 4) 0 ++ rest.drop size)
    (d := num true 2 type) (by rw [num_length]; rfl)
  have p5 := poke_append (a := A ++ num true 2 type) (b := [0, 0])
    (c := List.replicate (size - 4) 0 ++ rest.drop size) (d := num true 2 0) (by rw [num_length]; rfl)
  rw [List.length_append, num_length] at p5
  rw [pokes, p3, bind_ok, pokes, big_eq, replicate4 size h4]
  simp only [List.append_assoc] at p4 p5 ⊢
  rw [p4, bind_ok, pokes, big_eq, p5, bind_ok, pokes]

/-- A record with other blockettes and content. -/
def grown (r : Rec) (chain : List (Blkt × List UInt8)) (n : Nat) (rest : List UInt8) : Rec :=
  { r with chain := chain, numblockettes := UInt8.ofNat n, rest := rest }

theorem grown_fixed (r : Rec) (chain : List (Blkt × List UInt8)) (n : Nat) (rest : List UInt8)
    (h1 : r.chain ≠ []) (h2 : chain ≠ []) :
    (grown r chain n rest).fixed = ({ r with numblockettes := UInt8.ofNat n } : Rec).fixed := by
  unfold Rec.fixed grown
  simp only
  rw [if_neg h1, if_neg h2]

theorem grown_bytes (r : Rec) (chain : List (Blkt × List UInt8)) (n : Nat) (rest : List UInt8)
    (h1 : r.chain ≠ []) (h2 : chain ≠ []) :
    (grown r chain n rest).bytes =
      ({ r with numblockettes := UInt8.ofNat n } : Rec).fixed ++ chainBytes r.be 48 chain ++ rest := by
  unfold Rec.bytes
  rw [grown_fixed r chain n rest h1 h2]
  rfl

/-- Adding blockettes to a record. -/
theorem addSteps_eq (h : Bool) (L : Nat) (hL : L < 4294967296) : ∀ (steps : List Step) (ms : List Mapped),
    Stores steps ms → ∀ (r : Rec) (c : List (Blkt × List UInt8)) (x : Blkt) (n w : Nat), Shape r →
    r.be = true → r.chain = c ++ [(x, [])] → Sized r.chain → r.numblockettes = UInt8.ofNat n →
    w = 48 + (linked 48 r.chain).length → w + total ms ≤ L → L ≤ w + r.rest.length →
    addSteps h L steps r.bytes w (48 + (linked 48 c).length + 2) n =
      .ok ((grown r (r.chain ++ chained ms) (n + ms.length) (r.rest.drop (total ms))).bytes, w + total ms) := by
  intro steps ms hst
  induction hst with
  | nil =>
    intro r c x n w s hbe hc hz hn hw h1 h2
    rw [addSteps]
    simp only [chained, total, List.map_nil, List.append_nil, List.sum_nil, Nat.add_zero, List.length_nil,
      List.drop_zero, grown]
    rw [← hn]
  | room size ss ms hsz _ ih =>
    intro r c x n w s hbe hc hz hn hw h1 h2
    rw [addSteps, if_neg (by
      rw [show L + 4294967296 - w = 4294967296 + (L - w) by omega, Nat.add_mod_left,
        Nat.mod_eq_of_lt (by omega)]
      omega)]
    exact ih r c x n w s hbe hc hz hn hw h1 h2
  | add m ws ss ms hws _ ih =>
    intro r c x n w s hbe hc hz hn hw h1 h2
    have htot : total (m :: ms) = (Blkt.mapped m).size + total ms := rfl
    rw [htot] at h1 ⊢
    have hzc : Sized c := fun b hb => hz b (by rw [hc]; exact List.mem_append_left _ hb)
    have hzx : 4 + (x.body true).length = x.size := hz (x, []) (by rw [hc]; simp)
    have hlen := writeAll_length _ _ _ _ hws
    have hsz4 : 4 ≤ (Blkt.mapped m).size := Nat.le_add_right 4 _
    have hzm : 4 + ((Blkt.mapped m).body true).length = (Blkt.mapped m).size := by
      simp only [block, List.length_append, num_length, List.length_replicate] at hlen
      omega
    rw [addSteps, if_neg (by
      rw [show L + 4294967296 - w = 4294967296 + (L - w) by omega, Nat.add_mod_left,
        Nat.mod_eq_of_lt (by omega)]
      omega)]
    -- the link of the last blockette
    have hfix := fixed_length' r s
    have hb0 : r.bytes = (r.fixed ++ linked 48 c ++ num true 2 x.type) ++ num true 2 0 ++
        (x.body true ++ r.rest) := by
      unfold Rec.bytes
      rw [hbe, hc, chain_snoc _ _ _ hzc]
      simp only [block, List.append_assoc, List.append_nil]
    have hw' : w = 48 + (linked 48 c).length + x.size := by
      rw [hw, hc, linked_snoc _ _ _ hzc]
      simp only [List.length_append, num_length, List.length_nil]
      omega
    have p1 : poke r.bytes (48 + (linked 48 c).length + 2) (big h 2 (w % 65536)) =
        .ok (r.fixed ++ (linked 48 r.chain ++ r.rest)) := by
      have := poke_append (a := r.fixed ++ linked 48 c ++ num true 2 x.type) (b := num true 2 0)
        (c := x.body true ++ r.rest) (d := num true 2 w) (by rw [num_length, num_length])
      rw [List.length_append, List.length_append, hfix, num_length] at this
      rw [hb0, big_eq, num2_mod, this, hc, linked_snoc _ _ _ hzc, hw']
      simp only [List.append_assoc, List.append_nil, List.length_nil, Nat.add_zero]
    have p2 := poke_count h r s ((n + 1) % 256) (linked 48 r.chain ++ r.rest)
    rw [ofNat_mod] at p2
    have hfix2 := fixed_length' ({ r with numblockettes := UInt8.ofNat (n + 1) } : Rec) ⟨s.1, s.2, s.3, s.4⟩
    generalize hF : ({ r with numblockettes := UInt8.ofNat (n + 1) } : Rec).fixed = F at p2 hfix2
    have hA : (F ++ linked 48 r.chain).length = w := by rw [List.length_append, hfix2, hw]
    have p3 := pokes_block h (F ++ linked 48 r.chain) r.rest m.type (Blkt.mapped m).size hsz4 (by omega)
    rw [hA] at p3
    have hbegin : beginBlockette h r.bytes w (48 + (linked 48 c).length + 2) n m.type (Blkt.mapped m).size =
        .ok (F ++ linked 48 r.chain ++ (num true 2 m.type ++ num true 2 0 ++
          List.replicate ((Blkt.mapped m).size - 4) 0) ++ r.rest.drop (Blkt.mapped m).size) := by
      unfold beginBlockette
      rw [pokes, p1, bind_ok, pokes, p2, bind_ok, ← List.append_assoc]
      exact p3
    have hwr := writeAll_window ws (F ++ linked 48 r.chain) _ _ (r.rest.drop (Blkt.mapped m).size) hws
    rw [hA] at hwr
    rw [hbegin, bind_ok, hwr, bind_ok]
    have hr' : F ++ linked 48 r.chain ++ block (.mapped m) ++ r.rest.drop (Blkt.mapped m).size =
        (grown r (r.chain ++ [(.mapped m, [])]) (n + 1) (r.rest.drop (Blkt.mapped m).size)).bytes := by
      rw [grown_bytes _ _ _ _ (by rw [hc]; simp) (by simp), hF, hbe, chain_snoc _ _ _ hz]
      simp only [List.append_assoc, List.append_nil]
    have hz' : Sized (r.chain ++ [(Blkt.mapped m, [])]) := by
      intro b hb
      rcases List.mem_append.1 hb with hb | hb
      · exact hz b hb
      · simp only [List.mem_cons, List.not_mem_nil, or_false] at hb
        rw [hb]; exact hzm
    have := ih (grown r (r.chain ++ [(Blkt.mapped m, [])]) (n + 1) (r.rest.drop (Blkt.mapped m).size)) r.chain
      (.mapped m) (n + 1) (w + (Blkt.mapped m).size) ⟨s.1, s.2, s.3, s.4⟩ hbe rfl hz' rfl (by
            show _ = 48 + (linked 48 (r.chain ++ [(Blkt.mapped m, [])])).length
            rw [linked_snoc _ _ _ hz]
            simp only [List.length_append, num_length, List.length_nil]
            omega) (by omega) (by
              show _ ≤ _ + (r.rest.drop (Blkt.mapped m).size).length
              rw [List.length_drop]; omega)
    rw [show 48 + (linked 48 r.chain).length + 2 = w + 2 by omega] at this
    rw [hr', this]
    rw [show w + (Blkt.mapped m).size + total ms = w + ((Blkt.mapped m).size + total ms) by omega]
    have e1 : (grown r (r.chain ++ [(.mapped m, [])]) (n + 1) (r.rest.drop (Blkt.mapped m).size)).chain ++ chained ms =
        r.chain ++ chained (m :: ms) := by
      show r.chain ++ [(.mapped m, [])] ++ chained ms = _
      rw [List.append_assoc]
      rfl
    have e2 : (grown r (r.chain ++ [(.mapped m, [])]) (n + 1) (r.rest.drop (Blkt.mapped m).size)).rest.drop (total ms) =
        r.rest.drop ((Blkt.mapped m).size + total ms) := by
      show (r.rest.drop (Blkt.mapped m).size).drop (total ms) = _
      rw [List.drop_drop]
    rw [e1, e2, show n + 1 + ms.length = n + (m :: ms).length by rw [List.length_cons]; omega]
    rfl

theorem stores_total {steps : List Step} {ms : List Mapped} (h : Stores steps ms) :
    ∀ m ∈ ms, 4 + ((Blkt.mapped m).body true).length = (Blkt.mapped m).size := by
  induction h with
  | nil => simp
  | room n ss ms _ _ ih => exact ih
  | add m ws ss ms hws _ ih =>
    intro m' hm
    rcases List.mem_cons.1 hm with rfl | hm
    · have hlen := writeAll_length _ _ _ _ hws
      have hsz4 : 4 ≤ (Blkt.mapped m').size := Nat.le_add_right 4 _
      simp only [block, List.length_append, num_length, List.length_replicate] at hlen
      omega
    · exact ih m' hm

theorem base_sized (d : Head) (enc : Nat) : Sized (d.base enc) := by
  unfold Head.base Sized
  cases d.timed <;> cases d.poor <;> simp [Blkt.body, Blkt.size, num_length]

theorem linked_length : ∀ (c : List (Blkt × List UInt8)) (off : Nat),
    (linked off c).length = (chainBytes true off c).length := by
  intro c
  induction c with
  | nil => intro off; rfl
  | cons y c ih =>
    obtain ⟨b, pad⟩ := y
    intro off
    simp only [linked, chainBytes, List.length_append, num_length, ih]

theorem sized_length : ∀ (c : List (Blkt × List UInt8)) (off : Nat), Sized c →
    (chainBytes true off c).length = (c.map fun b => b.1.size + b.2.length).sum := by
  intro c
  induction c with
  | nil => intro off _; rfl
  | cons y c ih =>
    obtain ⟨b, pad⟩ := y
    intro off hs
    have hb := hs (b, pad) (List.mem_cons_self ..)
    simp only [chainBytes, List.length_append, num_length, List.map_cons, List.sum_cons]
    rw [ih _ (fun z hz => hs z (List.mem_cons_of_mem _ hz))]
    simp only at hb
    omega

/-- The blockettes of entries have their sizes. -/
def Head.Sound (d : Head) : Prop := ∀ m ∈ d.more, 4 + ((Blkt.mapped m).body true).length = (Blkt.mapped m).size

theorem chain_sized (d : Head) (hs : d.Sound) (enc : Nat) : Sized (d.chain enc) := by
  intro b hb
  rcases List.mem_append.1 hb with hb | hb
  · exact base_sized d enc b hb
  · obtain ⟨m, hm, rfl⟩ := List.mem_map.1 hb
    exact hs m hm

theorem chain_size (d : Head) (hs : d.Sound) (enc : Nat) :
    48 + (chainBytes true 48 (d.chain enc)).length = d.size := by
  have hb := base_size d enc
  rw [sized_length _ _ (base_sized d enc)] at hb
  rw [sized_length _ _ (chain_sized d hs enc)]
  unfold Head.chain Head.size
  rw [List.map_append, List.sum_append, ← hb]
  unfold chained total
  rw [List.map_map, Nat.add_assoc]
  rfl

theorem written_fixed (h : Bool) (m : Msr) (net sta loc : List UInt8) (band source position : UInt8)
    (d : Head) (rest : List UInt8) :
    written (fixedWrites h m { sta := padded 5 sta, loc := padded 2 loc,
                               chan := [band, source, position], net := padded 2 net }
      d.time d.factor d.multiplier d.extra d.few) =
    (headRec m net sta loc band source position { d with more := [] } rest).fixed := by
  rw [fixed_eq]
  unfold written fixedWrites
  simp only [big_eq, byte_eq, bits_twos2, bits_twos4]
  rfl

theorem contig_chain (rates : Rates) (h : Bool) (m : Msr) (d : Head) :
    Contig 48 (chainWrites rates h m d.exponent d.time d.extra d.timed d.poor) := by
  unfold chainWrites
  cases d.timed <;> cases d.poor <;>
    simp [Contig, b1000Writes, b1001Writes, b100Writes, big_eq, byte_eq, num_length]

/-- The last of the blockettes 1000, 1001 and 100 and where it is. -/
theorem base_last (d : Head) (enc : Nat) : ∃ c x, d.base enc = c ++ [(x, [])] ∧
    48 + (linked 48 c).length = if d.poor then (if d.timed then 64 else 56) else if d.timed then 56 else 48 := by
  unfold Head.base
  cases d.timed <;> cases d.poor
  · exact ⟨[], _, rfl, rfl⟩
  · exact ⟨[_], _, rfl, by simp [linked, num_length, Blkt.body]⟩
  · exact ⟨[_], _, rfl, by simp [linked, num_length, Blkt.body]⟩
  · exact ⟨[_, _], _, rfl, by simp [linked, num_length, Blkt.body]⟩

theorem packHeader2_eq (rates : Rates) (json : List UInt8 → Option Extra) (h : Bool) (m : Msr)
    (net sta loc : List UInt8) (band source position : UInt8) (d : Head) (buf : List UInt8)
    (hn : Names m.sid net sta loc band source position)
    (hk : 7 ≤ d.exponent ∧ d.exponent ≤ 17) (hr : packReclen m.reclen = (2 ^ d.exponent : Nat))
    (ht : nstime2time m.starttime = some d.time)
    (hf : rates.factors m.samprate = some (d.factor, d.multiplier))
    (he : extraOf json m.extra = some d.extra) (hst : Stores d.extra.steps d.more)
    (hp : d.poor = rates.poor m.samprate d.factor d.multiplier)
    (hfl : d.float = rates.narrow m.samprate) (hb : d.size ≤ buf.length) (hL : buf.length < 4294967296) :
    packHeader2 rates json h m buf buf.length =
      .ok ((headRec m net sta loc band source position d (buf.drop d.size)).bytes, d.size) := by
  obtain ⟨k1, k2, k3, k4⟩ := exp_ok d.exponent hk
  have hsz : d.size = d.baseSize + total d.more := rfl
  unfold packHeader2
  rw [hr]
  simp only [Int.toNat_natCast]
  rw [if_neg (by omega), if_neg (by rw [k1]; simp), codes_eq hn, bind_ok, ht]
  simp only
  rw [hf]
  simp only
  rw [he, k2, ← hp]
  simp only
  rw [show (d.extra.timing.isSome || decide (microOffset d.time ≠ 0)) = d.timed from rfl]
  have hs : Shape (headRec m net sta loc band source position { d with more := [] } (buf.drop d.baseSize)) :=
    ⟨rfl, hn.sta.2, hn.loc.2, hn.net.2⟩
  have w1 := written_fixed h m net sta loc band source position d (buf.drop d.baseSize)
  have w2 := written_chain rates h m d hfl
  have l1 := fixed_length' _ hs
  have l2 := base_size d (packEncoding m.encoding)
  have hc : Contig ([] : List UInt8).length (fixedWrites h m
                             { sta := padded 5 sta, loc := padded 2 loc,
                               chan := [band, source, position], net := padded 2 net } d.time d.factor
      d.multiplier d.extra d.few ++
      chainWrites rates h m d.exponent d.time d.extra d.timed d.poor) := by
    apply contig_append
    · simp [Contig, fixedWrites, big_eq, byte_eq, num_length, padded_length hn.sta.2,
        padded_length hn.loc.2, padded_length hn.net.2]
    · rw [w1, l1]
      exact contig_chain rates h m d
  have hw := pokes_contig _ [] buf hc (by rw [written_append, w1, w2, List.length_append]; omega)
  rw [written_append, w1, w2, List.nil_append, List.length_append] at hw
  rw [show (1 + (if d.timed = true then 1 else 0) + if d.poor = true then 1 else 0) = d.few from rfl,
    hw, bind_ok]
  have e : (headRec m net sta loc band source position { d with more := [] } (buf.drop d.baseSize)).fixed.length +
      (chainBytes true 48 (d.base (packEncoding m.encoding))).length = d.baseSize := by omega
  rw [e]
  simp only [List.nil_append]
  have hb0 : (headRec m net sta loc band source position { d with more := [] } (buf.drop d.baseSize)).fixed ++
      chainBytes true 48 (d.base (packEncoding m.encoding)) ++ buf.drop d.baseSize =
      (headRec m net sta loc band source position { d with more := [] } (buf.drop d.baseSize)).bytes := by
    have : (headRec m net sta loc band source position { d with more := [] } (buf.drop d.baseSize)).chain =
      d.base (packEncoding m.encoding) := by
      show d.base _ ++ chained [] = _
      exact List.append_nil _
    unfold Rec.bytes
    rw [this]
    rfl
  rw [hb0, show 56 + (if d.timed = true then 8 else 0) + (if d.poor = true then 12 else 0) = d.baseSize from rfl]
  obtain ⟨c, x, hcx, hlast⟩ := base_last d (packEncoding m.encoding)
  have hch : (headRec m net sta loc band source position { d with more := [] } (buf.drop d.baseSize)).chain =
      d.base (packEncoding m.encoding) := by
    show d.base _ ++ chained [] = _
    exact List.append_nil _
  rw [← hlast]
  have hadd := addSteps_eq h buf.length hL d.extra.steps d.more hst
    (headRec m net sta loc band source position { d with more := [] } (buf.drop d.baseSize)) c x d.few
    d.baseSize hs rfl (by rw [hch, hcx]) (by rw [hch]; exact base_sized d _) rfl
    (by rw [hch, linked_length]; omega) (by omega) (by
      show _ ≤ _ + (buf.drop d.baseSize).length
      rw [List.length_drop]; omega)
  rw [hadd, hsz, hch, show (headRec m net sta loc band source position { d with more := [] }
    (buf.drop d.baseSize)).rest = buf.drop d.baseSize from rfl, List.drop_drop]
  rfl

end Verif.Proof.Pack2
