import Verif.Proof.Str
/-!
# Properties C10–C13, C56, C57: string helpers and source identifiers
-/
namespace Verif.Props.Str
open Verif.Spec.Utf8 Verif.Model.Str Verif.Proof.Str

/-- The text of a string as bytes. -/
abbrev bytes (s : String) : List UInt8 := s.toUTF8.toList

/-- Bytes that may occur in a code: no NUL, no underscore, no colon. -/
def CodeOK (c : List UInt8) : Prop := ∀ b ∈ c, b ≠ 0 ∧ b ≠ 95 ∧ b ≠ 58

/-- The identifier text `FDSN:net_sta_loc_xchan`. -/
def sidText (net sta loc xchan : List UInt8) : List UInt8 :=
  [70, 68, 83, 78, 58] ++ (net ++ 95 :: (sta ++ 95 :: (loc ++ 95 :: xchan)))

theorem CodeOK.count {c : List UInt8} (h : CodeOK c) : c.count 95 = 0 := by
  rw [List.count_eq_zero]
  intro hm
  exact (h 95 hm).2.1 rfl

theorem CodeOK.noColon {c : List UInt8} (h : CodeOK c) : 58 ∉ c := fun hm => (h 58 hm).2.2 rfl
theorem CodeOK.noUnder {c : List UInt8} (h : CodeOK c) : 95 ∉ c := fun hm => (h 95 hm).2.1 rfl

theorem sid2nslc_sidText (net sta loc band src pos : List UInt8)
    (hn : CodeOK net) (hs : CodeOK sta) (hl : CodeOK loc)
    (hb : CodeOK band) (hr : CodeOK src) (hp : CodeOK pos) :
    sid2nslc (sidText net sta loc (band ++ 95 :: (src ++ 95 :: pos))) =
      some ⟨net, sta, loc, some (toSeedchan (band ++ 95 :: (src ++ 95 :: pos)))⟩ := by
  unfold sid2nslc
  have hpre : (sidText net sta loc (band ++ 95 :: (src ++ 95 :: pos))).take 5
      = [70, 68, 83, 78, 58] := by simp [sidText]
  rw [if_pos hpre]
  have hcol : afterLastColon (sidText net sta loc (band ++ 95 :: (src ++ 95 :: pos)))
      = net ++ 95 :: (sta ++ 95 :: (loc ++ 95 :: (band ++ 95 :: (src ++ 95 :: pos)))) := by
    apply afterLastColon_spec
    simp [hn.noColon, hs.noColon, hl.noColon, hb.noColon, hr.noColon, hp.noColon]
  have hcnt : (net ++ 95 :: (sta ++ 95 :: (loc ++ 95 :: (band ++ 95 :: (src ++ 95 :: pos))))).count 95
      = 5 := by
    simp [List.count_append, List.count_cons, hn.count, hs.count, hl.count, hb.count, hr.count,
      hp.count]
  simp only [hcol, hcnt]
  rw [splitUnderscore_append _ _ hn.noUnder]
  simp only
  rw [splitUnderscore_append _ _ hs.noUnder]
  simp only
  rw [splitUnderscore_append _ _ hl.noUnder]
  simp

/-- **C10.** Codes without separators and a 3-character channel: the identifier is
`FDSN:NET_STA_LOC_B_S_P`, the reported length is its length, and it decodes to the same codes. -/
theorem C10_sid_round_trip (sidlen : Nat) (net sta : List UInt8) (loc : Option (List UInt8))
    (b s p : UInt8) (h16 : 16 ≤ sidlen)
    (hn : CodeOK net) (hs : CodeOK sta) (hl : CodeOK (loc.getD [])) (hc : CodeOK [b, s, p])
    (hfit : net.length + sta.length + (loc.getD []).length + 13 < sidlen) :
    ∃ sid, nslc2sid sidlen net sta loc [b, s, p] = some (sid, sid.length) ∧
      sid = sidText net sta (loc.getD []) [b, 95, s, 95, p] ∧
      sid2nslc sid = some ⟨net, sta, loc.getD [], some [b, s, p]⟩ := by
  have hb := hc b (by simp)
  have hs' := hc s (by simp)
  have hp := hc p (by simp)
  have hx : toXchan [b, s, p] = [b, 95, s, 95, p] := by
    unfold toXchan
    have := (seedchan_spec [b, s, p] (fun x hx => (hc x hx).1) []).1 b s p rfl
    rw [this]
    simp [cstr, hb, hs', hp]
  have hy : toSeedchan [b, 95, s, 95, p] = [b, s, p] := by
    unfold toSeedchan
    have := (xchan_spec [b, 95, s, 95, p] (by simp [hb, hs', hp]) []).1 b s p rfl
    rw [this]
    simp [cstr, hb, hs', hp]
  refine ⟨_, ?_, rfl, ?_⟩
  · rw [nslc2sid_eq sidlen net sta loc [b, s, p] _ h16 hx (by simp; omega)]
    simp [sidText]; omega
  · have := sid2nslc_sidText net sta (loc.getD []) [b] [s] [p] hn hs hl
      (by intro x hx; simp at hx; subst hx; exact hb)
      (by intro x hx; simp at hx; subst hx; exact hs')
      (by intro x hx; simp at hx; subst hx; exact hp)
    simpa [hy] using this

example : nslc2sid 64 (bytes "IU") (bytes "ANMO") none (bytes "BHZ")
      = some (bytes "FDSN:IU_ANMO__B_H_Z", 19) ∧
    sid2nslc (bytes "FDSN:IU_ANMO__B_H_Z")
      = some ⟨bytes "IU", bytes "ANMO", [], some (bytes "BHZ")⟩ := by decide +kernel

/-- **C10 (buffer too small).** For every buffer of at least 16 bytes and any codes, what is left in
the buffer is the beginning of the identifier with room for the terminator; -1 is returned exactly
if the identifier and its terminator do not fit, otherwise the length of the identifier. -/
theorem C10_too_small_refused (sidlen : Nat) (net sta : List UInt8) (loc : Option (List UInt8))
    (chan : List UInt8) (h16 : 16 ≤ sidlen) :
    let text := sidText net sta (loc.getD []) (toXchan chan)
    nslcStored sidlen net sta (loc.getD []) (toXchan chan) = text.take (sidlen - 1) ∧
    (text.length + 1 ≤ sidlen → nslc2sid sidlen net sta loc chan = some (text, text.length)) ∧
    (sidlen < text.length + 1 → nslc2sid sidlen net sta loc chan = none) := by
  intro text
  have hlen : text.length = 5 + net.length + 1 + sta.length + 1 + (loc.getD []).length + 1
      + (toXchan chan).length := by simp [text, sidText]; omega
  refine ⟨nslcStored_eq sidlen _ _ _ _ (by omega), ?_, ?_⟩
  · intro h
    rw [nslc2sid_eq sidlen net sta loc chan _ h16 rfl (by omega), hlen]
    rfl
  · intro h
    unfold nslc2sid
    rw [if_neg (by omega)]
    simp only
    rw [if_pos (by omega)]

example : nslc2sid 16 (bytes "NET") (bytes "STATION") none (bytes "BHZ") = none ∧
    nslcStored 16 (bytes "NET") (bytes "STATION") [] (bytes "B_H_Z") = bytes "FDSN:NET_STATIO" := by
  decide +kernel

/-- **C10 (extended channels).** With an extended channel `BAND_SOURCE_POSITION` of other widths
the channel comes back unchanged too. -/
theorem C10_extended_round_trip (sidlen : Nat) (net sta : List UInt8) (loc : Option (List UInt8))
    (band src pos : List UInt8) (h16 : 16 ≤ sidlen)
    (hn : CodeOK net) (hs : CodeOK sta) (hl : CodeOK (loc.getD []))
    (hb : CodeOK band) (hr : CodeOK src) (hp : CodeOK pos)
    (hne : band.length + src.length + pos.length ≠ 1)
    (hwide : ¬ (band.length = 1 ∧ src.length = 1 ∧ pos.length = 1))
    (hfit : net.length + sta.length + (loc.getD []).length
      + band.length + src.length + pos.length + 10 < sidlen) :
    let chan := band ++ 95 :: (src ++ 95 :: pos)
    ∃ sid, nslc2sid sidlen net sta loc chan = some (sid, sid.length) ∧
      sid = sidText net sta (loc.getD []) chan ∧
      sid2nslc sid = some ⟨net, sta, loc.getD [], some chan⟩ := by
  intro chan
  have hz : ∀ x ∈ chan, x ≠ 0 := by
    intro x hx
    simp only [chan, List.mem_append, List.mem_cons] at hx
    rcases hx with h | rfl | h | rfl | h
    · exact (hb x h).1
    · decide
    · exact (hr x h).1
    · decide
    · exact (hp x h).1
  have hx : toXchan chan = chan := by
    unfold toXchan
    have := (seedchan_spec chan hz []).2 (by simp [chan]; omega)
    rw [this]
  have hy : toSeedchan chan = chan := by
    unfold toSeedchan
    have := (xchan_spec chan hz []).2 (by
      intro a b c he
      have hu := hb.noUnder
      have hu2 := hr.noUnder
      have e1 : splitUnderscore chan = some (band, src ++ 95 :: pos) :=
        splitUnderscore_append _ _ hu
      have ha : a ≠ 95 := by
        intro ha
        subst ha
        have hc := congrArg (List.count 95) he
        simp [chan, List.count_append, List.count_cons, hb.count, hr.count, hp.count] at hc
      have hbb : b ≠ 95 := by
        intro ha
        subst ha
        have hc := congrArg (List.count 95) he
        simp [chan, List.count_append, List.count_cons, hb.count, hr.count, hp.count] at hc
        omega
      rw [he] at e1
      simp [splitUnderscore, ha] at e1
      obtain ⟨h1, h2⟩ := e1
      have e2 : splitUnderscore (src ++ 95 :: pos) = some (src, pos) :=
        splitUnderscore_append _ _ hu2
      rw [← h2] at e2
      simp [splitUnderscore, hbb] at e2
      apply hwide
      rw [← h1, ← e2.1, ← e2.2]
      simp)
    rw [this]
  refine ⟨_, ?_, rfl, ?_⟩
  · rw [nslc2sid_eq sidlen net sta loc chan chan h16 hx (by simp [chan]; omega)]
    simp [sidText]; omega
  · have := sid2nslc_sidText net sta (loc.getD []) band src pos hn hs hl hb hr hp
    rw [show band ++ 95 :: (src ++ 95 :: pos) = chan from rfl, hy] at this
    exact this

example : nslc2sid 64 (bytes "XX") (bytes "S") (some (bytes "00")) (bytes "B_HH_12")
      = some (bytes "FDSN:XX_S_00_B_HH_12", 20) ∧
    sid2nslc (bytes "FDSN:XX_S_00_B_HH_12")
      = some ⟨bytes "XX", bytes "S", bytes "00", some (bytes "B_HH_12")⟩ := by decide +kernel

/-- **C56 is violated**: the documentation converts a channel only when it is "3 characters with no
delimiters", but the extended channel `_T_` (empty band and position) is rewritten, and the
resulting identifier no longer decodes. -/
theorem C56_delimited_channel_rewritten_violated :
    nslc2sid 64 (bytes "N") (bytes "S") (some (bytes "L")) (bytes "_T_")
      = some (bytes "FDSN:N_S_L_" ++ bytes "__T__", 16) ∧
    sid2nslc (bytes "FDSN:N_S_L_" ++ bytes "__T__") = none := by decide +kernel

/-- **C56 (partial).** Every channel whose length is not 3 is copied into the identifier verbatim,
delimiters included.  Missing: 3-character channels with delimiters. -/
theorem C56_other_channels_verbatim_partial (sidlen : Nat) (net sta chan : List UInt8)
    (loc : Option (List UInt8)) (h16 : 16 ≤ sidlen) (hc : ∀ b ∈ chan, b ≠ 0) (h3 : chan.length ≠ 3)
    (hfit : net.length + sta.length + (loc.getD []).length + chan.length + 8 < sidlen) :
    nslc2sid sidlen net sta loc chan =
      some (sidText net sta (loc.getD []) chan,
        net.length + sta.length + (loc.getD []).length + chan.length + 8) := by
  have hx : toXchan chan = chan := by
    unfold toXchan
    rw [(seedchan_spec chan hc []).2 h3]
  rw [nslc2sid_eq sidlen net sta loc chan chan h16 hx (by omega)]
  simp only [sidText, Option.some.injEq, Prod.mk.injEq, true_and]
  omega

example : (bytes "BH_Z").length ≠ 3 ∧ nslc2sid 16 [] [] none (bytes "BH_Z") =
    some (bytes "FDSN:___BH_Z", 12) := by decide +kernel

/-- **C11 (forward).** `ms_seedchan2xchan` on any C string (whatever follows the terminator)
never reads beyond the terminator, maps exactly the 3-character strings, and stores `B_S_P`. -/
theorem C11_seedchan_to_xchan (s tail : List UInt8) (hs : ∀ b ∈ s, b ≠ 0) :
    (∀ a b c, s = [a, b, c] →
      seedchan2xchan (s ++ 0 :: tail) = some (some [a, 95, b, 95, c, 0])) ∧
    (s.length ≠ 3 → seedchan2xchan (s ++ 0 :: tail) = some none) ∧
    seedchan2xchan (s ++ [0]) = seedchan2xchan (s ++ 0 :: tail) := by
  obtain ⟨h1, h2⟩ := seedchan_spec s hs tail
  obtain ⟨h3, h4⟩ := seedchan_spec s hs []
  refine ⟨h1, h2, ?_⟩
  by_cases h : s.length = 3
  · match s, h with
    | [a, b, c], _ => rw [h1 a b c rfl, h3 a b c rfl]
  · rw [h2 h, h4 h]

/-- **C11 (backward).** `ms_xchan2seedchan` likewise, for exactly the strings `X_X_X`. -/
theorem C11_xchan_to_seedchan (s tail : List UInt8) (hs : ∀ b ∈ s, b ≠ 0) :
    (∀ a b c, s = [a, 95, b, 95, c] →
      xchan2seedchan (s ++ 0 :: tail) = some (some [a, b, c, 0])) ∧
    ((∀ a b c, s ≠ [a, 95, b, 95, c]) → xchan2seedchan (s ++ 0 :: tail) = some none) :=
  xchan_spec s hs tail

/-- **C11 (inverse).** Converting forth and back is the identity, both ways. -/
theorem C11_inverse (a b c : UInt8) (ha : a ≠ 0) (hb : b ≠ 0) (hc : c ≠ 0) :
    (∃ x, seedchan2xchan [a, b, c, 0] = some (some x) ∧
      xchan2seedchan x = some (some [a, b, c, 0])) ∧
    (∃ x, xchan2seedchan [a, 95, b, 95, c, 0] = some (some x) ∧
      seedchan2xchan x = some (some [a, 95, b, 95, c, 0])) := by
  constructor
  · refine ⟨[a, 95, b, 95, c, 0], ?_, ?_⟩
    · exact (seedchan_spec [a, b, c] (by simp [ha, hb, hc]) []).1 a b c rfl
    · exact (xchan_spec [a, 95, b, 95, c] (by simp [ha, hb, hc]) []).1 a b c rfl
  · refine ⟨[a, b, c, 0], ?_, ?_⟩
    · exact (xchan_spec [a, 95, b, 95, c] (by simp [ha, hb, hc]) []).1 a b c rfl
    · exact (seedchan_spec [a, b, c] (by simp [ha, hb, hc]) []).1 a b c rfl

example : seedchan2xchan (bytes "BHZ" ++ [0]) = some (some (bytes "B_H_Z" ++ [0])) ∧
    seedchan2xchan (bytes "BH" ++ [0]) = some none ∧
    xchan2seedchan (bytes "B_H_Z" ++ [0]) = some (some (bytes "BHZ" ++ [0])) ∧
    xchan2seedchan (bytes "B_HZ_" ++ [0]) = some none := by decide +kernel

/-- The readable memory `s ++ rest` of a string argument: `s` is NUL-free and either ends with a
terminator or is longer than `length`, or at least one byte follows the `length` bytes. -/
def Readable (s rest : List UInt8) (length : Int) : Prop :=
  (∀ b ∈ s, b ≠ 0) ∧
  (length.toNat < s.length ∨ (∃ t, rest = 0 :: t) ∨ (length.toNat = s.length ∧ rest ≠ []))

/-- **C13.** The identifier length is the length of the longest well-formed UTF-8 prefix within the
limit. -/
theorem C13_utf8_length (s rest : List UInt8) (length : Int) (h : Readable s rest length) :
    ∃ k, utf8Length (s ++ rest) length = some k ∧ LongestPrefix s length.toNat k :=
  utf8Length_spec s rest length h.1 h.2

/-- Non-vacuity: a 3-byte character cut at the limit, and an invalid byte. -/
example : utf8Length (bytes "AB€" ++ [0]) 4 = some 2 ∧ utf8Length (bytes "AB€" ++ [0]) 5 = some 5 ∧
    utf8Length [65, 0xC0, 66, 0] 9 = some 1 ∧ Readable (bytes "AB€") [0] 4 := by
  refine ⟨by decide +kernel, by decide +kernel, by decide +kernel, by decide +kernel, ?_⟩
  exact Or.inr (Or.inl ⟨[], rfl⟩)

/-- **C12 (`ms_strncpclean`).** Stores the kept prefix without its spaces, then NUL; returns the
number of bytes kept.  Never more than `length + 1` bytes are stored. -/
theorem C12_strncpclean (s rest : List UInt8) (length : Int) (h : Readable s rest length) :
    ∃ k, LongestPrefix s length.toNat k ∧
      strncpclean (s ++ rest) length =
        some ((s.take k).filter (· ≠ 32) ++ [0], ((s.take k).filter (· ≠ 32)).length) ∧
      ((s.take k).filter (· ≠ 32) ++ [0]).length ≤ length.toNat + 1 := by
  obtain ⟨k, h1, h2⟩ := C13_utf8_length s rest length h
  refine ⟨k, h2, ?_, ?_⟩
  · unfold strncpclean
    rw [h1]
    simp only [Option.bind_some]
    rw [cleanLoop_spec k s rest [] h.1 h2.2.1]
    simp
  · have := List.length_filter_le (fun x : UInt8 => decide (x ≠ 32)) (s.take k)
    have h3 : (s.take k).length ≤ k := by simp; omega
    have h4 := h2.1
    simp only [List.length_append, List.length_cons, List.length_nil]
    omega

example : strncpclean (bytes " A B  C" ++ [0]) 6 = some (bytes "AB" ++ [0], 2) ∧
    strncpclean (bytes " A B  C" ++ [0]) 7 = some (bytes "ABC" ++ [0], 3) := by decide +kernel

/-- **C12 (`ms_strncpcleantail`).** The kept prefix splits into a text that does not end in a space
and `j` spaces; exactly the text is stored, with NULs instead of the spaces and one more. -/
theorem C12_strncpcleantail (s rest : List UInt8) (length : Int) (h : Readable s rest length) :
    ∃ k text j, LongestPrefix s length.toNat k ∧
      s.take k = text ++ List.replicate j 32 ∧ text.getLast? ≠ some 32 ∧
      strncpcleantail (s ++ rest) length =
        some (text ++ List.replicate (j + 1) 0, text.length) ∧
      (text ++ List.replicate (j + 1) (0 : UInt8)).length ≤ length.toNat + 1 := by
  obtain ⟨k, h1, h2⟩ := C13_utf8_length s rest length h
  obtain ⟨kept, j, e1, e2, e3⟩ := tailLoop_spec ((s.take k).reverse) [0]
  have hs : s.take k = kept.reverse ++ List.replicate j 32 := by
    have := congrArg List.reverse e1
    simpa using this
  refine ⟨k, kept.reverse, j, h2, hs, by simpa using e2, ?_, ?_⟩
  · unfold strncpcleantail
    rw [h1]
    simp only [Option.map_some]
    rw [List.take_append_of_le_length h2.2.1, e3]
    simp [List.replicate_succ']
  · have h3 : (s.take k).length ≤ k := by simp; omega
    rw [hs] at h3
    have h4 := h2.1
    simp at h3 ⊢
    omega

example : strncpcleantail (bytes "A B   " ++ [0]) 5 = some (bytes "A B" ++ [0, 0, 0], 3) := by
  decide +kernel

/-- **C12 (`ms_strncpopen`).** Exactly `length` bytes are stored: the kept prefix padded with
spaces, no terminator; the return value is the number of source bytes. -/
theorem C12_strncpopen (s rest : List UInt8) (length : Int) (h : Readable s rest length) :
    ∃ k, LongestPrefix s length.toNat k ∧
      strncpopen (s ++ rest) length =
        some (s.take k ++ List.replicate (length.toNat - k) 32, k) ∧
      (s.take k ++ List.replicate (length.toNat - k) 32).length = length.toNat := by
  obtain ⟨k, h1, h2⟩ := C13_utf8_length s rest length h
  refine ⟨k, h2, ?_, ?_⟩
  · unfold strncpopen
    rw [h1]
    simp only [Option.map_some]
    rw [openLoop_spec _ _ _ _ h2.2.1 h2.1]
  · have h3 := h2.1
    have h4 := h2.2.1
    simp
    omega

example : strncpopen (bytes "ANMO" ++ [0]) 5 = some (bytes "ANMO ", 4) ∧
    strncpopen (bytes "ANMOXY" ++ [0]) 5 = some (bytes "ANMOX", 5) := by decide +kernel

/-- **C57 is violated**: copying a fixed-width field that fills its buffer reads one byte beyond it,
for every field without NUL: the loop tests the character before the limit (genutils.c:553). -/
theorem C57_field_over_read_violated (field : List UInt8) (h : ∀ b ∈ field, b ≠ 0) :
    strncpclean field field.length = none ∧ strncpcleantail field field.length = none ∧
    strncpopen field field.length = none := by
  have : utf8Length field field.length = none := utf8Loop_overread field 0 0 0 h
  simp [strncpclean, strncpcleantail, strncpopen, this]

example : ∀ b ∈ bytes "FDSN:XX_S__B_H_Z", b ≠ 0 := by decide +kernel

/-- **C57 (partial).** With one more readable byte, or a terminator inside the field, the copies
stay inside the readable memory.  Missing: fields that end exactly at the end of the buffer. -/
theorem C57_field_read_in_bounds_partial (s rest : List UInt8) (length : Int)
    (h : Readable s rest length) :
    (strncpclean (s ++ rest) length).isSome ∧ (strncpcleantail (s ++ rest) length).isSome ∧
    (strncpopen (s ++ rest) length).isSome := by
  obtain ⟨_, _, e1, _⟩ := C12_strncpclean s rest length h
  obtain ⟨_, _, _, _, _, _, e2, _⟩ := C12_strncpcleantail s rest length h
  obtain ⟨_, _, e3, _⟩ := C12_strncpopen s rest length h
  rw [e1, e2, e3]
  simp

example : Readable (bytes "ABCDE") [7] 5 :=
  ⟨by decide +kernel, Or.inr (Or.inr ⟨by decide +kernel, by simp⟩)⟩

end Verif.Props.Str
