import Verif.Proof.Report
import Verif.Proof.Binary
/-!
# Properties of the lists printed (C103-C105)
-/
namespace Verif.Props.Report
open Verif.Model Verif.Model.Steim Verif.Model.Trace Verif.Model.TraceList Verif.Model.Report
open Verif.Props.Trace Verif.Props.TraceList Verif.Props.Gaps Verif.Spec Verif.Proof.Report
open Verif.Props.TracePack (Each)
open Verif.Model.Gaps (Line)

/-! ## Words -/

theorem words_blank (a b : List UInt8) (c : UInt8) (hc : blank c = true) :
    words (a ++ c :: b) = words a ++ words b := by
  have key : ∀ a : List UInt8, (a ++ c :: b).foldr before ([], []) =
      ((a.foldr before ([], [])).1, (a.foldr before ([], [])).2 ++ words b) := by
    intro a
    induction a with
    | nil =>
      simp only [List.nil_append, List.foldr_cons, List.foldr_nil]
      unfold before
      rw [if_pos hc]
      rfl
    | cons x t ih =>
      rw [List.cons_append, List.foldr_cons, List.foldr_cons, ih]
      unfold before
      by_cases hx : blank x = true
      · rw [if_pos hx, if_pos hx]
        simp only
        split <;> simp
      · rw [if_neg hx, if_neg hx]
  show (let x := (a ++ c :: b).foldr before ([], []); if x.1 = [] then x.2 else x.1 :: x.2) = _
  rw [key]
  simp only
  have e : words a = if (a.foldr before ([], [])).1 = [] then (a.foldr before ([], [])).2
      else (a.foldr before ([], [])).1 :: (a.foldr before ([], [])).2 := rfl
  rw [e]
  split <;> simp

theorem words_ink {s : List UInt8} (h : s ≠ []) (hs : ∀ c ∈ s, blank c = false) : words s = [s] := by
  have key : ∀ s : List UInt8, (∀ c ∈ s, blank c = false) → s.foldr before ([], []) = (s, []) := by
    intro s
    induction s with
    | nil => intro _; rfl
    | cons x t ih =>
      intro hs
      rw [List.foldr_cons, ih fun c hc => hs c (List.mem_cons_of_mem _ hc)]
      unfold before
      rw [if_neg (by rw [hs x (by simp)]; decide)]
  unfold words
  rw [key s hs]
  simp [h]

theorem words_replicate (n : Nat) : words (List.replicate n 32) = [] := by
  induction n with
  | zero => rfl
  | succ n ih =>
    have := words_blank [] (List.replicate n 32) 32 (by decide)
    rw [List.replicate_succ]
    rw [List.nil_append, ih] at this
    rw [this]
    rfl

theorem words_pad (w : Nat) (s : List UInt8) : words (s.rightpad w 32) = words s := by
  unfold List.rightpad
  cases h : w - s.length with
  | zero => simp
  | succ n =>
    rw [List.replicate_succ, words_blank _ _ _ (by decide), words_replicate, List.append_nil]

theorem words_table (cells : List (Nat × List UInt8)) :
    words (table cells) = cells.flatMap fun c => words c.2 := by
  unfold table
  rw [words_blank _ _ _ (by decide)]
  have : ∀ cells : List (Nat × List UInt8),
      words ([32].intercalate (cells.map fun c => c.2.rightpad c.1 32)) = cells.flatMap fun c => words c.2 := by
    intro cells
    induction cells with
    | nil => rfl
    | cons x t ih =>
      cases t with
      | nil =>
        simp only [List.map_cons, List.map_nil, List.intercalate, List.intersperse, List.flatten_cons,
          List.flatten_nil, List.append_nil, List.flatMap_cons, List.flatMap_nil]
        exact words_pad _ _
      | cons y u =>
        have e : [32].intercalate ((x :: y :: u).map fun c => c.2.rightpad c.1 32)
            = x.2.rightpad x.1 32 ++ 32 :: [32].intercalate ((y :: u).map fun c => c.2.rightpad c.1 32) := by
          simp [List.intercalate]
        rw [e, words_blank _ _ _ (by decide), ih, words_pad]
        rfl
  rw [this]
  exact List.append_nil _

theorem ink {s : List Char} (hne : s ≠ []) (h : ∀ c ∈ s, 33 ≤ c.toNat ∧ c.toNat ≤ 126) :
    words (ascii s) = [ascii s] := by
  apply words_ink
  · intro h
    exact hne (List.map_eq_nil_iff.1 h)
  · intro c hc
    obtain ⟨d, hd, ed⟩ := List.mem_map.1 hc
    rw [← ed]
    have hb := h d hd
    have e : (UInt8.ofNat d.toNat).toNat = d.toNat := by
      rw [UInt8.toNat_ofNat']
      omega
    have h1 : UInt8.ofNat d.toNat ≠ 32 := by
      intro h'
      rw [h'] at e
      have : (32 : UInt8).toNat = 32 := rfl
      omega
    have h2 : UInt8.ofNat d.toNat ≠ 10 := by
      intro h'
      rw [h'] at e
      have : (10 : UInt8).toNat = 10 := rfl
      omega
    simp [blank, h1, h2]

theorem writes_ink {s : List Char} {y : Rat} (h : Verif.Spec.Decimal.Writes s y) :
    s ≠ [] ∧ ∀ c ∈ s, 33 ≤ c.toNat ∧ c.toNat ≤ 126 := by
  obtain ⟨hne, hi⟩ := Verif.Proof.Printf.writes_inked h
  refine ⟨hne, fun c hc => ?_⟩
  rcases hi c hc with h | rfl | rfl | rfl | rfl
  · unfold Verif.Spec.TimeStr.Digit at h
    omega
  all_goals decide

theorem number_words {p : Nat} {x : Rat} {t : List UInt8} (h : NumberShown p x t) : words t = [t] := by
  obtain ⟨s, y, e, hw, _⟩ := h
  obtain ⟨h1, h2⟩ := writes_ink hw
  rw [e]
  exact ink h1 h2

theorem gap_words {g : Option Rat} {t : List UInt8} (h : GapShown g t) :
    words t = [if g = none then ascii "==".toList else t] := by
  cases h with
  | first => decide +kernel
  | zero => decide +kernel
  | days h1 hw h2 =>
    obtain ⟨a, b⟩ := writes_ink hw
    rw [if_neg (by simp)]
    refine ink (by simp) ?_
    intro c hc
    rcases List.mem_append.1 hc with hc | hc
    · exact b c hc
    · simp only [List.mem_singleton] at hc
      subst hc
      decide
  | hours h0 h1 hw h2 =>
    obtain ⟨a, b⟩ := writes_ink hw
    rw [if_neg (by simp)]
    refine ink (by simp) ?_
    intro c hc
    rcases List.mem_append.1 hc with hc | hc
    · exact b c hc
    · simp only [List.mem_singleton] at hc
      subst hc
      decide
  | seconds h1 h2 hn =>
    rw [if_neg (by simp)]
    exact number_words hn

theorem count_words (n : Int) (h : 0 ≤ n) : words (ascii (toString n).toList) = [ascii (toString n).toList] := by
  rw [← printD_text, bytes_eq]
  unfold TimeStr.printD
  rw [if_neg (by omega)]
  refine ink ?_ ?_
  · have := Nat.length_toDigits_pos (b := 10) (n := n.toNat)
    intro h'
    rw [h'] at this
    simp at this
  · intro c hc
    have := (Verif.Proof.TimeStr.numeral_toDigits n.toNat).2.1 c hc
    unfold Verif.Spec.TimeStr.Digit at this
    omega

/-! ## The trace list -/

/-- A record of a source. -/
def record (sid : String) (t : Int) : Arrival Rat :=
  { sid := ascii sid.toList, pub := 2, start := t, stop := t + 9000000000, period := 1000000000, tol := 500000000,
    rate := 1, samplecnt := 10, sampletype := 'i', data := [] }

/-- Records of two sources, the first with a gap of 11 seconds. -/
def some' : List (Arrival Rat) :=
  [record "FDSN:XX_ABC_00_B_H_Z" 0, record "FDSN:XX_DEF__B_H_Z" 5000000000,
   record "FDSN:XX_ABC_00_B_H_Z" 20000000000, record "FDSN:XX_DEF__B_H_Z" 15000000000]

theorem some_usual : ∃ hist tl, Listed (fun a b : Rat => a == b) true true false hist tl ∧
    hist.map Prod.fst = some' ∧ Usual hist := by
  obtain ⟨hist, tl, h1, h2⟩ := Verif.Proof.TraceList.listings (fun a b : Rat => a == b) true true false some'
  refine ⟨hist, tl, h1, h2, ?_, ?_⟩
  · have key : ∀ r ∈ some', Ordinary r := by
      intro r hr
      have hrate : Sensible 1 := by
        right
        constructor
        · have : (10 : Rat) ^ (-400 : Int) ≤ 10 ^ (0 : Int) := Verif.Proof.Printf.zmono (by decide)
          rwa [Rat.zpow_zero] at this
        · decide +kernel
      simp only [some', List.mem_cons, List.not_mem_nil, or_false] at hr
      rcases hr with rfl | rfl | rfl | rfl <;>
        exact ⟨by unfold Modern; decide, by unfold Modern; decide, by decide, by decide, hrate, by decide,
          by decide, by decide⟩
    intro y hy
    exact key y.1 (h2 ▸ List.mem_map_of_mem hy)
  · have : (hist.map fun y => y.1.samplecnt) = (hist.map Prod.fst).map fun y => y.samplecnt := by
      rw [List.map_map]; rfl
    rw [this, h2]
    decide

/-- **C103** (trace list).  For every history of additions of ordinary records, the trace list printed is a
heading, one line for each segment, in the order of the list (with start, end, the gap before it, rate and number
of samples), and with the details a line with the numbers of sources and of segments. -/
theorem C103_trace_list {sim : Rat → Rat → Bool} {split autoheal keep : Bool}
    {hist : List (Arrival Rat × Bool)} {tl : TraceList Rat} (h : Listed sim split autoheal keep hist tl)
    (hu : Usual hist) {rnd : Rat → Rat} (hr : Rounding rnd) (fmt : TimeStr.Format) (details gaps versions : Bool) :
    ∃ rows heading lines, Contents tl rows ∧
      printTraceList rnd fmt details gaps versions tl = .ok (heading :: lines ++
        if details then [ascii s!"Total: {rows.length} trace(s) with {lines.length} segment(s)\n".toList] else []) ∧
      words heading = [ascii "SourceID".toList, ascii "Start".toList, ascii "sample".toList, ascii "End".toList,
        ascii "sample".toList] ++ (if gaps then [ascii "Gap".toList] else []) ++
        (if details then [ascii "Hz".toList, ascii "Samples".toList] else []) ∧
      Each (fun x line => TraceRow rnd fmt details gaps (name versions x.1) x.2.1 x.2.2 line)
        (entries rows) lines := by
  obtain ⟨l, pick, hgt, hrep, hpick, hcon, hre⟩ := Verif.Proof.TraceFacts.listed_rows h
  have hw := Verif.Proof.TraceList.walk_of_rep hrep
  have ht := Verif.Proof.TraceFacts.usual_tidy h hu _ hcon
  obtain ⟨lines, e, hrows⟩ := sourceLines_ok hr fmt details gaps versions tl pick l (tl.fresh + 1) hrep.here hpick
    (by
      intro x hx
      obtain ⟨h1, h2, h3⟩ := ht _ (List.mem_map_of_mem hx)
      exact ⟨h1, h2, fun y hy => h3 _ (List.mem_map_of_mem hy)⟩)
    hw.next (by have := hrep.room; omega)
  refine ⟨_, message (traceHeader details gaps), lines, hcon, ?_, ?_, hrows⟩
  · unfold printTraceList
    rw [hw.first, e, Verif.Proof.Mem.bind_ok]
    congr 2
    cases details with
    | false => rfl
    | true =>
      simp only [and_self, if_true]
      congr 1
      show traceTotal l.length lines.length = _
      unfold traceTotal
      rw [printD_text, printD_text, lit_eq, lit_eq, lit_eq, ← ascii_append, ← ascii_append, ← ascii_append,
        ← ascii_append]
      congr 1
      simp only [List.length_map]
      rw [show toString (l.length : Int) = toString l.length from rfl,
        show toString (lines.length : Int) = toString lines.length from rfl]
      simp only [String.toList_append, List.append_assoc]
      rfl
  · cases details <;> cases gaps <;> decide +kernel

example : ∃ hist tl, Listed (fun a b : Rat => a == b) true true false hist tl ∧ hist.length = 4 ∧ Usual hist ∧
    Rounding Verif.Spec.Binary.binary64 := by
  obtain ⟨hist, tl, h1, h2, h3⟩ := some_usual
  exact ⟨hist, tl, h1, by have := congrArg List.length h2; simpa [some'] using this, h3,
    Verif.Proof.Binary.rounding_binary64⟩

/-- **C103** (words).  A line read by its words gives the identifier, start, end, gap (`==` for the first segment
of a source), rate and number of samples of the segment, in this order, whatever their lengths. -/
theorem C103_words {rnd : Rat → Rat} {fmt : TimeStr.Format} {details gaps : Bool} {sid : List UInt8}
    {p : Option (Seg Rat)} {s : Seg Rat} {line : List UInt8} (h : TraceRow rnd fmt details gaps sid p s line)
    (hs : 0 ≤ s.samplecnt) :
    ∃ start stop gap rate, TimeShown fmt .nanoMicro s.start start ∧ TimeShown fmt .nanoMicro s.stop stop ∧
      GapShown (p.map fun q => Gaps.gapOf rnd q s) gap ∧ NumberShown 3 s.rate rate ∧
      words line = words sid ++ words start ++ words stop ++
        (if gaps then [if p = none then ascii "==".toList else gap] else []) ++
        (if details then [rate, ascii (toString s.samplecnt).toList] else []) := by
  cases h with
  | @mk start stop gap rate h1 h2 h3 h4 =>
  refine ⟨start, stop, gap, rate, h1, h2, h3, h4, ?_⟩
  rw [words_table]
  have e3 := gap_words h3
  have e3' : words gap = [if p = none then ascii "==".toList else gap] := by
    rw [e3]
    cases p <;> simp
  have e4 := number_words h4
  have e5 := count_words s.samplecnt hs
  generalize ascii (toString s.samplecnt).toList = count at *
  cases details <;> cases gaps <;> simp [e3', e4, e5]

example : ∃ line, TraceRow id .seedOrdinal true true (ascii "FDSN:XX_ABC_00_B_H_Z".toList) none
    ⟨0, 9000000000, 1, 10, 'i', [], []⟩ line := by
  obtain ⟨a, _, ha, _⟩ := timeText_ok .seedOrdinal .nanoMicro (t := 0) (by unfold Modern; decide)
  obtain ⟨b, _, hb, _⟩ := timeText_ok .seedOrdinal .nanoMicro (t := 9000000000) (by unfold Modern; decide)
  exact ⟨_, TraceRow.mk ha hb GapShown.first (general_shown 3 (by decide) 1)⟩

/-! ## The SYNC list -/

/-- **C104** (SYNC list).  For every history of additions of ordinary records whose identifiers are made of
network, station, location and channel codes, none of more than 10 characters, the SYNC list is a heading and one
line for each segment, in the order of the list, of 16 fields: the codes, start, end, rate, number of samples
and the date. -/
theorem C104_sync_list_partial {sim : Rat → Rat → Bool} {split autoheal keep : Bool}
    {hist : List (Arrival Rat × Bool)} {tl : TraceList Rat} (h : Listed sim split autoheal keep hist tl)
    (hu : Usual hist) (hn : ∀ y ∈ hist, ∃ net sta loc chan, Named y.1.sid net sta loc chan)
    (dccid : Option (List UInt8)) (hd : (dccid.getD []).length ≤ 100) (sub : TimeStr.Sub) (day : List UInt8)
    (hday : day.length ≤ 31) :
    ∃ rows lines, Contents tl rows ∧
      printSyncList dccid sub day tl = .ok (fields [dccid.getD (ascii "DCC".toList), day] :: lines) ∧
      Each (fun x line => SyncRow sub day x.1.sid x.2 line) (rows.flatMap fun x => x.2.map fun s => (x.1, s))
        lines := by
  obtain ⟨l, pick, hgt, hrep, hpick, hcon, hre⟩ := Verif.Proof.TraceFacts.listed_rows h
  have hw := Verif.Proof.TraceList.walk_of_rep hrep
  have ht := Verif.Proof.TraceFacts.usual_tidy h hu _ hcon
  obtain ⟨lines, e, hrows⟩ := syncSources_ok sub hday tl pick l (tl.fresh + 1) {} hrep.here hpick
    (by
      intro x hx y hy
      exact (ht _ (List.mem_map_of_mem hx)).2.2 _ (List.mem_map_of_mem hy))
    (by
      intro x hx
      obtain ⟨_, y, hy, e⟩ := hre x hx
      rw [← e]
      exact hn y hy)
    hw.next (by have := hrep.room; omega)
  refine ⟨_, lines, hcon, ?_, hrows⟩
  unfold printSyncList
  rw [hw.first, e, Verif.Proof.Mem.bind_ok]
  congr 2
  rw [message_short]
  · simp [fields, List.intercalate, lit_eq]
  · cases dccid with
    | none =>
      have : (Options.lit "DCC").length = 3 := by decide
      simp
      omega
    | some d => simp at hd ⊢; omega

theorem some_named : ∀ r ∈ some', ∃ net sta loc chan, Named r.sid net sta loc chan := by
  have d : ∀ c : List UInt8, (c.all fun b => b != 0 && b != 95 && b != 58) = true → Verif.Props.Str.CodeOK c := by
    intro c hc b hb
    have := List.all_eq_true.1 hc b hb
    simp at this
    exact ⟨this.1.1, this.1.2, this.2⟩
  intro r hr
  simp only [some', List.mem_cons, List.not_mem_nil, or_false] at hr
  rcases hr with rfl | rfl | rfl | rfl
  · exact ⟨[88, 88], [65, 66, 67], [48, 48], [66, 72, 90], ⟨66, 72, 90, rfl, by decide⟩, ⟨d _ (by decide), by decide⟩,
      ⟨d _ (by decide), by decide⟩, ⟨d _ (by decide), by decide⟩, d _ (by decide)⟩
  · exact ⟨[88, 88], [68, 69, 70], [], [66, 72, 90], ⟨66, 72, 90, rfl, by decide⟩, ⟨d _ (by decide), by decide⟩,
      ⟨d _ (by decide), by decide⟩, ⟨d _ (by decide), by decide⟩, d _ (by decide)⟩
  · exact ⟨[88, 88], [65, 66, 67], [48, 48], [66, 72, 90], ⟨66, 72, 90, rfl, by decide⟩, ⟨d _ (by decide), by decide⟩,
      ⟨d _ (by decide), by decide⟩, ⟨d _ (by decide), by decide⟩, d _ (by decide)⟩
  · exact ⟨[88, 88], [68, 69, 70], [], [66, 72, 90], ⟨66, 72, 90, rfl, by decide⟩, ⟨d _ (by decide), by decide⟩,
      ⟨d _ (by decide), by decide⟩, ⟨d _ (by decide), by decide⟩, d _ (by decide)⟩

example : ∃ hist tl, Listed (fun a b : Rat => a == b) true true false hist tl ∧ hist.length = 4 ∧ Usual hist ∧
    ∀ y ∈ hist, ∃ net sta loc chan, Named y.1.sid net sta loc chan := by
  obtain ⟨hist, tl, h1, h2, h3⟩ := some_usual
  exact ⟨hist, tl, h1, by have := congrArg List.length h2; simpa [some'] using this, h3,
    fun y hy => some_named y.1 (h2 ▸ List.mem_map_of_mem hy)⟩

/-- What is printed by the SYNC list after the addition of records. -/
def synced (rs : List (Arrival Rat)) : Res (List (List UInt8)) :=
  let step := fun (x : Res (TraceList Rat)) r => x.bind fun tl =>
    (addMsr (fun a b => a == b) false true false tl r).bind fun y => .ok y.1
  (rs.foldl step (.ok init)).bind fun tl => printSyncList none .micro (ascii "2026,320".toList) tl

/-- **C104 violated** (long codes).  A station code of 11 characters, which the format and the library's records
allow, is written past the end of an array. -/
theorem C104_long_code_violated : synced [record "FDSN:XX_ABCDEFGHIJK__B_H_Z" 0] = .oob ∧
    synced [record "FDSN:XX_ABCDEFGHIJ__B_H_Z" 0] ≠ .oob := by
  decide +kernel

/-- **C104 violated** (other identifiers).  A source with an identifier of another form is printed with the codes
of the source before it: the line says that its samples are of that source. -/
theorem C104_stale_codes_violated :
    synced [record "FDSN:XX_ABC_00_B_H_Z" 0, record "http://example.org/sensor" 20000000000] =
      .ok [ascii "DCC|2026,320\n".toList,
        ascii "XX|ABC|00|BHZ|1970,001,00:00:00.000000|1970,001,00:00:09.000000||1|10|||||||2026,320\n".toList,
        ascii "XX|ABC|00|BHZ|1970,001,00:00:20.000000|1970,001,00:00:29.000000||1|10|||||||2026,320\n".toList] := by
  decide +kernel

/-! ## The gap list -/

/-- Rounding to 53 bits has grains. -/
theorem grained_binary64 : Grained Verif.Spec.Binary.binary64 := by
  intro x hx
  unfold Verif.Spec.Binary.binary64 at hx ⊢
  by_cases h0 : 0 < x
  · have he := Verif.Proof.Binary.exponent_spec x h0
    have hnear := Verif.Proof.Binary.round_near 53 (by decide) x (Rat.le_of_lt h0)
    have hexp : -2 ≤ Verif.Spec.Binary.exponent x := by
      refine Int.not_lt.1 fun hlt => ?_
      have h1 : (2 : Rat) ^ (Verif.Spec.Binary.exponent x + 1) ≤ 2 ^ (-2 : Int) :=
        Verif.Proof.Binary.two_mono (by omega)
      have e : (2 : Rat) ^ (-2 : Int) = 1 / 4 := by decide +kernel
      have e2 : (((2 ^ 53 : Nat)) : Rat) = 9007199254740992 := by decide +kernel
      rw [e] at h1
      rw [e2] at hnear
      have h2 := he.2
      generalize (2 : Rat) ^ (Verif.Spec.Binary.exponent x + 1) = v at *
      generalize Verif.Spec.Binary.round 53 x = w at *
      clear he
      grind
    obtain ⟨k, hk⟩ := Int.le.dest hexp
    unfold Verif.Spec.Binary.round Verif.Spec.Binary.roundPos
    rw [if_pos h0]
    generalize Verif.Spec.Binary.halfEven (x / Verif.Spec.Binary.ulp 53 x) = n
    refine ⟨n * (2 ^ k : Nat), ?_⟩
    unfold Verif.Spec.Binary.ulp
    have e1 : Verif.Spec.Binary.exponent x - (((53 : Nat) : Int) - 1) = -54 + (k : Int) := by omega
    have e3 : (2 : Rat) ^ (-54 : Int) = 1 / 2 ^ 54 := by decide +kernel
    rw [e1, Verif.Proof.Binary.two_add, Verif.Proof.Binary.two_nat, e3, Rat.intCast_mul, Rat.intCast_natCast]
    generalize ((2 ^ k : Nat) : Rat) = v
    generalize (n : Rat) = m
    grind
  · exfalso
    have h1 := Verif.Proof.Binary.round_mono 53 (by decide) x 0 (Rat.not_lt.1 h0)
    have h2 : Verif.Spec.Binary.round 53 0 = 0 := by decide +kernel
    rw [h2] at h1
    grind

/-- **C105** (gap list).  For every history of additions of ordinary records, the gap list printed is a heading,
one line for each pair of neighbouring segments with a gap inside the limits (C43) and a line with their number. -/
theorem C105_gap_list {sim : Rat → Rat → Bool} {split autoheal keep : Bool}
    {hist : List (Arrival Rat × Bool)} {tl : TraceList Rat} (h : Listed sim split autoheal keep hist tl)
    (hu : Usual hist) {rnd : Rat → Rat} (hr : Rounding rnd) (hg : Grained rnd) (fmt : TimeStr.Format)
    (mingap maxgap : Option Rat) :
    ∃ rows heading lines, Contents tl rows ∧
      printGapText rnd fmt mingap maxgap tl =
        .ok (heading :: lines ++ [ascii s!"Total: {lines.length} gap(s)\n".toList]) ∧
      words heading = [ascii "SourceID".toList, ascii "Last".toList, ascii "Sample".toList, ascii "Next".toList,
        ascii "Sample".toList, ascii "Gap".toList, ascii "Samples".toList] ∧
      Each (GapRow fmt) (rows.flatMap fun x => between rnd mingap maxgap x.1.sid x.2) lines := by
  obtain ⟨rows, gl, hcon, e, hl⟩ := C43_lines_are_gaps_partial h
    (fun y hy => ⟨(hu.1 y hy).start, (hu.1 y hy).stop⟩) rnd mingap maxgap
  have ht := Verif.Proof.TraceFacts.usual_tidy h hu _ hcon
  obtain ⟨lines, e2, hrows⟩ := gapLines_ok hr fmt gl (by
    intro x hx
    rw [hl] at hx
    obtain ⟨row, hrow, hx⟩ := List.mem_flatMap.1 hx
    obtain ⟨h1, h2, h3⟩ := ht row hrow
    unfold between at hx
    obtain ⟨⟨a, b⟩, hab, hx⟩ := List.mem_filterMap.1 hx
    have ha := h3 a (List.of_mem_zip hab).1
    have hb := h3 b (List.mem_of_mem_tail (List.of_mem_zip hab).2)
    unfold line at hx
    split at hx
    · cases hx
      have := gap_bounds hr ha hb
      exact ⟨h1, ha.stop, hb.start, this, samples_sized hr hg this.1 ha.rate⟩
    · cases hx)
  have hlen := each_length hrows
  rw [hl] at hrows
  refine ⟨rows, message gapHeader, lines, hcon, ?_, ?_, hrows⟩
  · unfold printGapText
    rw [e, Verif.Proof.Mem.bind_ok]
    simp only
    rw [e2, Verif.Proof.Mem.bind_ok, printD_text, lit_eq "Total: ", lit_eq " gap(s)\n", ← ascii_append,
      ← ascii_append]
    congr 4
    rw [hlen, show toString (lines.length : Int) = toString lines.length from rfl]
    simp only [String.toList_append, List.append_assoc]
    rfl
  · decide +kernel

example : ∃ hist tl, Listed (fun a b : Rat => a == b) true true false hist tl ∧ hist.length = 4 ∧ Usual hist ∧
    Rounding Verif.Spec.Binary.binary64 ∧ Grained Verif.Spec.Binary.binary64 := by
  obtain ⟨hist, tl, h1, h2, h3⟩ := some_usual
  exact ⟨hist, tl, h1, by have := congrArg List.length h2; simpa [some'] using this, h3,
    Verif.Proof.Binary.rounding_binary64, grained_binary64⟩

end Verif.Props.Report
