import Verif.Proof.UrlSmall
import Verif.Props.UrlReaderDefs
import Verif.Props.Reader
import Verif.Props.Url
/-!
# Reading records from a URL (C133)
-/
namespace Verif.Props.UrlReader
open Verif.Model Verif.Model.Record3 Verif.Model.Reader Verif.Model.Steim
open Verif.Model.UrlReader (During State)
open Verif.Model.Url (Conn Act feof)
open Verif.Proof.Reader Verif.Proof.UrlReader Verif.Proof.Mem
open Verif.Props.Reader (expected ofFile lastCode Version3 Alone Full Entry fileOf Gaps NoRecord wanted)
open Verif.Props.Url (content Sound Honours)

/-- **C133 (objects smaller than the read buffer of 10 MiB).** Reading an object of any bytes from a URL, with any
options, returns the same records with the same offsets and the same last code as reading these bytes from a file,
whatever pieces they arrive in and whatever libcurl does meanwhile, short of breaking off the transfer. -/
theorem C133_small_as_file (env : Record2.Env) (h : Bool) (base : Nat) (vc ud skip : Bool) (sel : Option (Msr → Bool))
    {c : Conn} {start stop : Int} {recs : List (Int × Msr)} {ret : Ret} (hc : c.running = true)
    (hl : (content c).length < 10485760)
    (hcalls : Calls (fun ws => ∀ w ∈ ws, Sound w.2) (opts env h base vc ud skip sel) (UrlReader.opened c start stop) recs ret) :
    Props.Reader.Calls (opts env h base vc ud skip sel)
      { unread := content c, streampos := if start > 0 then start else 0, endoffset := stop } recs ret := by
  have key : ∀ {s recs ret}, Calls (fun ws => ∀ w ∈ ws, Sound w.2) (opts env h base vc ud skip sel) s recs ret → Whole s →
      Props.Reader.Calls (opts env h base vc ud skip sel) s.r recs ret := by
    intro s recs ret hcalls
    induction hcalls with
    | stop ws s s' ret h1 h2 h3 =>
      intro hw
      obtain ⟨g1, -⟩ := readmsr_same ws false s ret s' hw h1 h2
      exact .stop _ _ _ (whole_readmsr (opts_ends env h base vc ud skip sel) hw g1) h3
    | next ws s s' m l ret h1 h2 h3 ih =>
      intro hw
      obtain ⟨g1, g2⟩ := readmsr_same ws false s _ s' hw h1 h2
      exact .next _ _ _ _ _ (whole_readmsr (opts_ends env h base vc ud skip sel) hw g1) (ih g2)
  have e : (UrlReader.opened c start stop).r =
      { unread := content c, streampos := if start > 0 then start else 0, endoffset := stop } := by
    unfold UrlReader.opened
    simp only [feof, hc, Bool.not_true]
    rfl
  rw [← e]
  exact key hcalls (.inr ⟨by simp [UrlReader.opened, feof, hc], hc, rfl, rfl, rfl, hl⟩)

theorem opened_inv {env : Record2.Env} (base : Nat) {vc ud skip : Bool} {sel : Option (Msr → Bool)} {c : Conn}
    {start stop : Int} {l : List Entry} {tail : List UInt8} (hc : c.running = true) (hp : Pieces c)
    (hcont : content c = fileOf l tail)
    (h3 : ∀ e ∈ l, Version3 e.bytes ∧ Alone env false vc e.bytes e.msr ∧ Full env false vc ud e.bytes e.msr e.full)
    (hl : ∀ e ∈ l, e.bytes.length + 16384 ≤ 10485760) (hg : Gaps skip l tail) (h0 : 0 ≤ start)
    (hstop : stop = 0 ∨ stop + 1 = start + ((fileOf l tail).length : Int)) :
    ∃ l' : List Item, items (opts env false base vc ud skip sel) l' = ofFile sel l ∧
      Inv (opts env false base vc ud skip sel) c.pieces.length l' tail false (UrlReader.opened c start stop) ∧
      (cat l').length + tail.length = (content c).length := by
  have hM : MAXRECLEN = 10485760 := rfl
  generalize ho : opts env false base vc ud skip sel = o
  let l' := l.map fun e => (⟨e.junk, e.bytes, if (ud && sel.isNone) = true then e.full else e.msr, e.full⟩ : Item)
  have e1 : cat l' ++ tail = fileOf l tail := by
    unfold cat fileOf
    rw [List.flatMap_map]
  have e2 : items o l' = ofFile sel l := by
    unfold items ofFile
    rw [List.map_map]
    refine List.map_congr_left fun e _ => ?_
    show (e.junk, e.bytes, chosen _ (if (ud && sel.isNone) = true then e.full else e.msr), e.full) = _
    rw [← ho, chosen_full]
  have e3 : (cat l').length + tail.length = (content c).length := by
    rw [hcont, ← e1, List.length_append]
  refine ⟨l', e2, ⟨?_, ⟨rfl, rfl, hp, Nat.le_refl _⟩, ?_, ?_, ?_, by simp⟩, e3⟩
  · rw [e1, ← hcont]
    exact ⟨by simp [UrlReader.opened], by simp [UrlReader.opened], by simp [UrlReader.opened], by simp [UrlReader.opened, content],
      by simp [UrlReader.opened, feof, hc], fun _ => Nat.one_dvd _⟩
  · intro i hi
    obtain ⟨e, he, rfl⟩ := List.mem_map.1 hi
    obtain ⟨a1, a2, a3⟩ := h3 e he
    obtain ⟨k1, k2⟩ := piece_of3 a1 a2
    refine ⟨⟨?_, ?_⟩, hl e he⟩
    · rw [← ho]
      exact good_piece base skip sel 1 (piece_full k1 a3) (Or.inr (Nat.one_dvd _)) (fun k hk _ _ => Or.inr (k2 k hk))
    · rcases hg.1 e he with hj | ⟨hs, hn⟩
      · exact Or.inl hj
      · exact Or.inr ⟨by omega, by rw [← ho]; exact hs, fun k hk t => by rw [← ho]; exact junk_bad hn k1.low k hk t⟩
  · rcases hg.2 with ht | ⟨hs, hn⟩
    · exact .inl ht
    · exact .inr ⟨by rw [← ho]; exact hs, fun i hi => by rw [← ho]; exact tail_bad hn i hi⟩
  · refine hstop.imp id fun e => ?_
    show stop + 1 = (if start > 0 then start else 0) + _
    rw [e3, hcont]
    split <;> omega

/-- **C133 (version 3).** An object of valid version 3 records, of any number and total length, is read completely from a
URL: every record that is asked for is returned once, in order and with its offset, and then the end is reported (or, if
there was no record, that these are no records).  `start` and `stop` are the offsets of the first and the last byte of
the stream as `C132_open_partial` gives them (`stop = 0` without a range).  Missing: records of more than 10 MiB less
16384 bytes, version 2 in objects of 10 MiB and more, the servers and transfers of C131 and C132. -/
theorem C133_version3_partial (env : Record2.Env) (base : Nat) (vc ud skip : Bool) (sel : Option (Msr → Bool)) {c : Conn}
    {start stop : Int} {l : List Entry} {tail : List UInt8} (hc : c.running = true) (hp : Pieces c)
    (hcont : content c = fileOf l tail)
    (h3 : ∀ e ∈ l, Version3 e.bytes ∧ Alone env false vc e.bytes e.msr ∧ Full env false vc ud e.bytes e.msr e.full)
    (hl : ∀ e ∈ l, e.bytes.length + 16384 ≤ 10485760) (hg : Gaps skip l tail) (h0 : 0 ≤ start)
    (hstop : stop = 0 ∨ stop + 1 = start + ((fileOf l tail).length : Int)) :
    (∀ recs ret, Calls Gentle (opts env false base vc ud skip sel) (UrlReader.opened c start stop) recs ret →
      recs = expected start (ofFile sel l) ∧ (ret = lastCode recs ∨ (ret = .endOfFile ∧ stop ≠ 0))) ∧
    ∀ s ws, After Gentle (opts env false base vc ud skip sel) (UrlReader.opened c start stop) s → Gentle ws →
      UrlReader.readmsr (opts env false base vc ud skip sel) ws false s = .err ∧ ¬ Enough (4 * (content c).length + 4) c ws ∨
      ∃ ret s', UrlReader.readmsr (opts env false base vc ud skip sel) ws false s = .ok (ret, s') := by
  obtain ⟨l', hitems, hinv, hlen⟩ := opened_inv base (sel := sel) hc hp hcont h3 hl hg h0 hstop
  generalize opts env false base vc ud skip sel = o at *
  have hpos : (UrlReader.opened c start stop).r.streampos = start := by
    show (if start > 0 then start else 0) = start
    split <;> omega
  constructor
  · intro recs ret hcalls
    have key : ∀ {s recs ret}, Calls Gentle o s recs ret → ∀ l tail, Inv o c.pieces.length l tail false s →
        recs = expected s.r.streampos (items o l) ∧ Last { s with r := { s.r with recordcount := s.r.recordcount + recs.length } } ret := by
      intro s recs ret hcalls
      induction hcalls with
      | stop ws s s' ret h1 h2 h3 =>
        intro l tail hi
        rcases readmsr_url ws l tail false s hi h1 with ⟨e, -⟩ | hg
        · rw [h2] at e; cases e
        · rw [h2] at hg
          cases hg with
          | record i => exact absurd rfl (h3 i.m')
          | stop _ _ b1 b2 => exact ⟨b1.symm, b2⟩
      | next ws s s' m recs ret h1 h2 h3 ih =>
        intro l tail hi
        rcases readmsr_url ws l tail false s hi h1 with ⟨e, -⟩ | hg
        · rw [h2] at e; cases e
        · rw [h2] at hg
          generalize hm : Ret.record m = q at hg
          cases hg with
          | record i l' t' s' b1 b2 b3 b4 =>
            cases hm
            obtain ⟨c1, c2⟩ := ih l' t' b1
            rw [b2, c1]
            refine ⟨rfl, ?_⟩
            unfold Last at c2 ⊢
            simp only [List.length_cons] at c2 ⊢
            rw [c1, b3, b4] at c2
            rw [show s.r.recordcount + ((expected s'.r.streampos (items o l')).length + 1) =
              s.r.recordcount + 1 + (expected s'.r.streampos (items o l')).length by omega]
            exact c2
          | stop _ _ b1 b2 =>
            subst hm
            rcases b2 with b2 | ⟨b2, -⟩
            · exact absurd b2.symm (code_ne _ _)
            · cases b2
    obtain ⟨k1, k2⟩ := key hcalls l' tail hinv
    rw [hpos, hitems] at k1
    refine ⟨k1, ?_⟩
    rw [← code_length]
    unfold Last at k2
    have e : (UrlReader.opened c start stop).r.recordcount = 0 := rfl
    simp only [e, Nat.zero_add] at k2
    exact k2
  · intro s ws hafter hws
    have key : ∀ {s0 s}, After Gentle o s0 s → ∀ l tail, Inv o c.pieces.length l tail false s0 →
        ∃ l' tail', Inv o c.pieces.length l' tail' false s ∧ (cat l').length + tail'.length ≤ (cat l).length + tail.length := by
      intro s0 s hafter
      induction hafter with
      | here s => exact fun l tail hi => ⟨l, tail, hi, Nat.le_refl _⟩
      | next ws s s' s2 m h1 h2 h3 ih =>
        intro l tail hi
        rcases readmsr_url ws l tail false s hi h1 with ⟨e, -⟩ | hg
        · rw [h2] at e; cases e
        · rw [h2] at hg
          generalize hm : Ret.record m = q at hg
          cases hg with
          | record i l' t' s' b1 b2 b3 b4 b5 =>
            obtain ⟨l2, t2, c1, c2⟩ := ih l' t' b1
            exact ⟨l2, t2, c1, by omega⟩
          | stop _ _ b1 b2 =>
            subst hm
            rcases b2 with b2 | ⟨b2, -⟩
            · exact absurd b2.symm (code_ne _ _)
            · cases b2
    obtain ⟨l2, t2, k1, k2⟩ := key hafter l' tail hinv
    rcases readmsr_url ws l2 t2 false s k1 hws with ⟨e, hb⟩ | hg
    · left
      refine ⟨e, fun hen => hb ⟨hen.2, ?_⟩⟩
      have := hen.1
      have ht := total k1
      unfold Proof.UrlReader.measure
      rw [ht]
      simp only [Bool.false_eq_true, if_false]
      have : s.r.unread.length ≤ (cat l2).length + t2.length := by omega
      split <;> omega
    · right
      generalize UrlReader.readmsr o ws false s = y at hg
      cases hg with
      | record i l' t' s' => exact ⟨_, _, rfl⟩
      | stop ret s' => exact ⟨_, _, rfl⟩

/-- There are such calls, whatever the records are. -/
theorem calls_exist {o : Opts} {n : Nat} : ∀ (k : Nat) (l : List Item) (tail : List UInt8) (s : State), Inv o n l tail false s →
    (expected s.r.streampos (items o l)).length ≤ k → ∃ recs ret, Calls Gentle o s recs ret := by
  intro k
  have hws : ∀ s : State, Gentle (List.replicate (Proof.UrlReader.measure false s + 1) (0, List.replicate (n + 1) { pieces := 1, finish := true })) := by
    intro s w hw
    rw [List.eq_of_mem_replicate hw]
    exact ⟨fun a ha => by rw [List.eq_of_mem_replicate ha], Nat.zero_le _⟩
  have hb : ∀ s : State, (∀ w ∈ List.replicate (Proof.UrlReader.measure false s + 1)
      ((0, List.replicate (n + 1) { pieces := 1, finish := true }) : During), Busy n w) ∧
      Proof.UrlReader.measure false s < (List.replicate (Proof.UrlReader.measure false s + 1)
      ((0, List.replicate (n + 1) { pieces := 1, finish := true }) : During)).length := by
    intro s
    refine ⟨fun w hw => ?_, by simp⟩
    rw [List.eq_of_mem_replicate hw]
    exact ⟨fun a ha => by rw [List.eq_of_mem_replicate ha]; exact ⟨by decide, rfl⟩, by simp⟩
  induction k with
  | zero =>
    intro l tail s hi hk
    rcases readmsr_url _ l tail false s hi (hws s) with ⟨-, e⟩ | hg
    · exact absurd (hb s) e
    · generalize hy : UrlReader.readmsr o _ false s = y at hg
      cases hg with
      | record i l' t' s' b1 b2 =>
        rw [b2] at hk
        simp at hk
      | stop ret s' b1 b2 =>
        refine ⟨[], ret, .stop _ s s' ret (hws s) hy ?_⟩
        rcases b2 with b2 | ⟨b2, -⟩
        · rw [b2]; exact code_ne _
        · rw [b2]; simp
  | succ k ih =>
    intro l tail s hi hk
    rcases readmsr_url _ l tail false s hi (hws s) with ⟨-, e⟩ | hg
    · exact absurd (hb s) e
    · generalize hy : UrlReader.readmsr o _ false s = y at hg
      cases hg with
      | record i l' t' s' b1 b2 =>
        rw [b2, List.length_cons] at hk
        obtain ⟨recs, ret, hc⟩ := ih l' t' s' b1 (by omega)
        exact ⟨_, ret, .next _ s s' _ recs ret (hws s) hy hc⟩
      | stop ret s' b1 b2 =>
        refine ⟨[], ret, .stop _ s s' ret (hws s) hy ?_⟩
        rcases b2 with b2 | ⟨b2, -⟩
        · rw [b2]; exact code_ne _
        · rw [b2]; simp

theorem urlOpen_conn {server : Option (List UInt8) → Model.Url.Answer} {start stop a b : Int} {first : Nat} {acts : List Act} {c : Conn}
    (h : Model.Url.urlOpen server start stop first acts = .ok (some (a, b, c))) :
    ∃ x rest, Model.Url.fread 0 first acts { pieces := (server (Model.Url.rangeAsked start stop)).pieces } = some (x, c, rest) := by
  unfold Model.Url.urlOpen at h
  simp only at h
  obtain ⟨y, -, h⟩ := bind_eq_ok.1 h
  split at h
  · cases h
  · rename_i x c' rest he
    split at h
    · cases h
    · cases h
      exact ⟨x, rest, he⟩

/-- **C133 (ranges of URLs).** The byte range of an object that has valid version 3 records, opened at a server that honours
requests for ranges, is read completely, whatever the object has before and behind it; the offsets of the records are those in
the object. -/
theorem C133_range_partial (env : Record2.Env) (base : Nat) (vc ud skip : Bool) (sel : Option (Msr → Bool))
    {server : Option (List UInt8) → Model.Url.Answer} {before behind tail : List UInt8} {l : List Entry}
    (hs : Honours (before ++ fileOf l tail ++ behind) server)
    (hp : ∀ q, ∀ p ∈ (server q).pieces, p ≠ [] ∧ p.length ≤ 16384)
    (h3 : ∀ e ∈ l, Version3 e.bytes ∧ Alone env false vc e.bytes e.msr ∧ Full env false vc ud e.bytes e.msr e.full)
    (hl : ∀ e ∈ l, e.bytes.length + 16384 ≤ 10485760) (hg : Gaps skip l tail) (hne : 2 ≤ (fileOf l tail).length)
    (hsize : (before ++ fileOf l tail ++ behind).length < 2 ^ 63) {start stop a b : Int} (hstart : start = before.length)
    (hstop : stop + 1 = before.length + (fileOf l tail).length) {first : Nat} {acts : List Act} (hacts : Sound acts) {c : Conn}
    (ho : Model.Url.urlOpen server start stop first acts = .ok (some (a, b, c))) {recs : List (Int × Msr)} {ret : Ret}
    (hcalls : Calls Gentle (opts env false base vc ud skip sel) (UrlReader.opened c a b) recs ret) :
    recs = expected before.length (ofFile sel l) ∧ (ret = lastCode recs ∨ ret = .endOfFile) := by
  rw [List.length_append, List.length_append] at hsize
  obtain ⟨st', c', h1, h2⟩ := Props.Url.C132_open_partial hs (start := start) (stop := stop) (first := first) (acts := acts) (by omega)
    (by rw [List.length_append, List.length_append]; omega) (by omega) (by omega)
    (by rw [List.length_append, List.length_append]; omega) hacts (by rw [ho]; simp)
  rw [ho] at h1
  cases h1
  rw [if_neg (by omega)] at h2
  have hlast : Spec.Url.lastByte (before ++ fileOf l tail ++ behind).length (if stop > 0 then some stop.toNat else none) = stop.toNat := by
    rw [if_pos (by omega)]
    unfold Spec.Url.lastByte
    rw [List.length_append, List.length_append]
    simp only
    omega
  rw [hlast] at h2
  have hcont : content c = fileOf l tail := by
    rw [h2.2]
    unfold Spec.Url.slice
    rw [show stop.toNat + 1 = (before ++ fileOf l tail).length by rw [List.length_append]; omega, List.take_left,
      show start.toNat = before.length by omega, List.drop_left]
  obtain ⟨x, rest, hf⟩ := urlOpen_conn ho
  obtain ⟨-, -, k3⟩ := Proof.Url.fread_ok hacts (by simp) hf
  have hrun : c.running = true := by
    cases hr : c.running with
    | true => rfl
    | false =>
      have : content c = [] := k3 hr
      rw [hcont] at this
      rw [this] at hne
      simp at hne
  have hpc : Pieces c := fun p hp' => hp _ p ((fread_suffix hf).subset hp')
  obtain ⟨r1, r2⟩ := (C133_version3_partial env base vc ud skip sel hrun hpc hcont h3 hl hg (start := start) (stop := b) (by omega)
    (.inr (by rw [h2.1]; omega))).1 recs ret hcalls
  refine ⟨by rw [← hstart]; exact r1, r2.imp id And.left⟩

/-- **C133 (read errors).** A call whose read gives no byte while the transfer still goes on returns an error, which
is neither a record nor the end of the object, and keeps what it has read so far.  (It happens when the room left in
the buffer behind a long record is smaller than the next piece, see `C131_small_buffer_violated`; the theorem on
version 3 excludes it by the length of the records.) -/
theorem C133_read_error (o : Opts) (w : During) (ws : List During) (s : State) {n : Int} {c : Conn} {rest : List Act}
    (hend : s.r.endoffset = 0 ∨ 40 ≤ s.r.endoffset + 1 - s.r.streampos) (hb : buflen s.r = .ok n) (he : s.r.eof = false)
    (hn : 0 < n ∧ n < 40) (hr : Model.Url.fread (10485760 - (s.r.buf.drop s.r.readoffset.toNat).length) w.1 w.2 s.conn = some ([], c, rest))
    (hf : feof c = false) :
    ∃ s', UrlReader.readmsr o (w :: ws) false s = .ok (.genError, s') ∧ s'.conn = c ∧
      s'.r.buf.drop s'.r.readoffset.toNat = s.r.buf.drop s.r.readoffset.toNat ∧ s'.r.streampos = s.r.streampos := by
  unfold UrlReader.readmsr UrlReader.step UrlReader.refill
  rw [if_neg (by omega), hb, bind_ok]
  simp only [if_pos (show s.r.eof = false ∧ (n < 40 ∨ false = true) from ⟨he, .inl hn.2⟩), if_neg (show ¬ n ≤ 0 by omega)]
  rw [show MAXRECLEN = 10485760 from rfl, hr]
  simp only [Option.map_some, hf, List.length_nil, decide_true, Bool.not_false, Bool.and_self, Bool.not_true, bind_ok]
  refine ⟨_, rfl, rfl, ?_, rfl⟩
  simp only [List.append_nil]
  by_cases h : s.r.readoffset > 0
  · simp [h]
  · simp [h, show ¬ n ≤ 0 by omega, show s.r.readoffset.toNat = 0 by omega]

/-- A read of a piece longer than the buffer, in the midst of a record. -/
example : ∃ s', UrlReader.readmsr (opts Props.Record2.env0 false 0 false false false none) [(0, [{ pieces := 1 }])] false
    { r := { unread := [], buf := List.replicate 39 77, streampos := 0, endoffset := 0 },
      conn := { pieces := [List.replicate 10485722 0] } } = .ok (.genError, s') := by
  have hl : (List.replicate 39 (77 : UInt8)).length = 39 := List.length_replicate
  obtain ⟨c', h1, h2, -⟩ := Props.Url.C131_small_buffer_violated (size := 10485721) (p := List.replicate 10485722 0) (t := [])
    (by rw [List.length_replicate]; decide)
  obtain ⟨s', h3, -⟩ := C133_read_error (opts Props.Record2.env0 false 0 false false false none) (0, [{ pieces := 1 }]) []
    { r := { unread := [], buf := List.replicate 39 77, streampos := 0, endoffset := 0 },
      conn := { pieces := [List.replicate 10485722 0] } } (n := 39) (c := c') (rest := []) (.inl rfl) rfl rfl (by decide)
    (by show Model.Url.fread (10485760 - 39) _ _ _ = _; exact h1) h2
  exact ⟨s', h3⟩

/-! ## Examples -/

/-- Two records in pieces that do not end where the records end. -/
def two : Conn := { pieces := [Props.Record3.sample.bytes.take 30, Props.Record3.sample.bytes.drop 30 ++ Props.Record3.sample.bytes.take 7, Props.Record3.sample.bytes.drop 7] }

example : ∃ m recs ret, Calls Gentle (opts Props.Record2.env0 false 0 false false false none) (UrlReader.opened two 0 0) recs ret ∧
    recs = expected 0 (ofFile none [⟨[], Props.Record3.sample.bytes, m, m⟩, ⟨[], Props.Record3.sample.bytes, m, m⟩]) ∧ recs.length = 2 := by
  obtain ⟨m, hm⟩ := Props.Reader.sample_alone
  have hp : Pieces two := by unfold Pieces; decide +kernel
  have hc : content two = fileOf [⟨[], Props.Record3.sample.bytes, m, m⟩, ⟨[], Props.Record3.sample.bytes, m, m⟩] [] := by
    simp [fileOf, content, two]
    rw [← List.append_assoc, List.take_append_drop]
  have h3 : ∀ e ∈ [(⟨[], Props.Record3.sample.bytes, m, m⟩ : Entry), ⟨[], Props.Record3.sample.bytes, m, m⟩], Version3 e.bytes ∧
      Alone Props.Record2.env0 false false e.bytes e.msr ∧ Full Props.Record2.env0 false false false e.bytes e.msr e.full := by
    intro e he
    simp only [List.mem_cons, List.not_mem_nil, or_false, or_self] at he
    subst he
    exact ⟨Props.Reader.sample_version3, hm, rfl⟩
  have hl : ∀ e ∈ [(⟨[], Props.Record3.sample.bytes, m, m⟩ : Entry), ⟨[], Props.Record3.sample.bytes, m, m⟩],
      e.bytes.length + 16384 ≤ 10485760 := by
    intro e he
    simp only [List.mem_cons, List.not_mem_nil, or_false, or_self] at he
    subst he
    show Props.Record3.sample.bytes.length + 16384 ≤ 10485760
    decide +kernel
  have hg : Gaps false [(⟨[], Props.Record3.sample.bytes, m, m⟩ : Entry), ⟨[], Props.Record3.sample.bytes, m, m⟩] [] := ⟨by simp, .inl (by simp)⟩
  obtain ⟨l', h1, h2, -⟩ := opened_inv (env := Props.Record2.env0) 0 (vc := false) (ud := false) (sel := none) (start := 0) (stop := 0)
    rfl hp hc h3 hl hg (by simp) (.inl rfl)
  obtain ⟨recs, ret, hcalls⟩ := calls_exist _ l' [] _ h2 (Nat.le_refl _)
  have := ((C133_version3_partial Props.Record2.env0 0 false false false none rfl hp hc h3 hl hg (by simp) (.inl rfl)).1 recs ret hcalls).1
  refine ⟨m, recs, ret, hcalls, this, ?_⟩
  rw [this]
  rfl

end Verif.Props.UrlReader
