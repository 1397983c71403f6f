import Verif.Model.Screen
import Verif.Props.ScreenDefs
import Verif.Proof.Report
/-!
# Lemmas on the text printed for records
-/
namespace Verif.Proof.Screen
open Verif.Model Verif.Model.Steim Verif.Model.Samples Verif.Model.Record3 Verif.Model.Msi Verif.Model.Report Verif.Model.Screen
open Verif.Model.Options (lit)
open Verif.Model.ReadTrace (hertz)
open Verif.Props.Report Verif.Props.Screen Verif.Props.TimeStr Verif.Proof.Report Verif.Proof.Printf
open Verif.Spec

theorem num_dec (n : Int) : num n = Verif.Props.Screen.dec n := printD_text n

/-- A number of at most `k` digits. -/
theorem dec_length {n : Int} {k : Nat} (hk : 0 < k) (h : n.natAbs < 10 ^ k) : (Verif.Props.Screen.dec n).length ≤ k + 1 := by
  rw [← num_dec]
  unfold num TimeStr.printD
  rw [bytes_eq, ascii_length]
  split
  · have := toDigits_length (n := (-n).toNat) hk (by omega)
    simp only [List.length_cons]
    omega
  · have := toDigits_length (n := n.toNat) hk (by omega)
    omega

theorem timeText_all {t : Int} (h : InInt64 t) (fmt : TimeStr.Format) (sub : TimeStr.Sub) :
    ∃ s, timeText fmt sub t = some s ∧ TimeShown fmt sub t s ∧ s.length ≤ 36 := by
  obtain ⟨s, e, hl⟩ := Verif.Props.TimeStr.C07_length t h fmt sub
  refine ⟨ascii s, ?_, ⟨s, e, rfl⟩, by rw [ascii_length]; exact hl⟩
  unfold timeText
  rw [e]
  rfl

/-! ## Hexadecimal -/

theorem hexValue_append (a : List UInt8) (c : UInt8) :
    hexValue (a ++ [c]) = hexValue a * 16 + (if c.toNat < 58 then c.toNat - 48 else c.toNat - 55) := by
  unfold hexValue
  rw [List.foldl_append]
  rfl

/-- The digit as printed. -/
def hexDigit (d : Nat) : UInt8 := UInt8.ofNat (Nat.digitChar d).toUpper.toNat

theorem hexDigit_ok : ∀ d < 16, ((48 ≤ (hexDigit d).toNat ∧ (hexDigit d).toNat ≤ 57) ∨
    (65 ≤ (hexDigit d).toNat ∧ (hexDigit d).toNat ≤ 70)) ∧
    (if (hexDigit d).toNat < 58 then (hexDigit d).toNat - 48 else (hexDigit d).toNat - 55) = d := by
  decide +kernel

theorem hex_shown (n : Nat) : HexShown n (hex n) := by
  induction n using Nat.strongRecOn with
  | _ n ih =>
    by_cases h : n < 16
    · have e : hex n = [hexDigit n] := by
        unfold hex bytes
        rw [Nat.toDigits_of_lt_base h]
        rfl
      rw [e]
      obtain ⟨h1, h2⟩ := hexDigit_ok n h
      refine ⟨by simp, by simpa using h1, ?_⟩
      have := hexValue_append [] (hexDigit n)
      rw [List.nil_append] at this
      rw [this, h2]
      show 0 * 16 + n = n
      omega
    · have e : hex n = hex (n / 16) ++ [hexDigit (n % 16)] := by
        unfold hex bytes
        rw [Nat.toDigits_of_base_le (by decide) (by omega), List.map_append, List.map_append]
        rfl
      obtain ⟨h1, h2, h3⟩ := ih (n / 16) (by omega)
      obtain ⟨k1, k2⟩ := hexDigit_ok (n % 16) (by omega)
      rw [e]
      refine ⟨by simp, ?_, ?_⟩
      · intro c hc
        rcases List.mem_append.1 hc with hc | hc
        · exact h2 c hc
        · rw [List.mem_singleton] at hc
          rw [hc]
          exact k1
      · rw [hexValue_append, h3, k2]
        omega

theorem hex_length {n k : Nat} (hk : 0 < k) (h : n < 16 ^ k) : (hex n).length ≤ k := by
  unfold hex bytes
  rw [List.length_map, List.length_map]
  exact (Nat.length_toDigits_le_iff (by decide) hk).2 h

/-! ## What is printed -/

theorem rate_ok {c : Texts} {m : Msr} {r : Rat} (hr : r = hertz c.rnd (c.rate m.samprate)) (hf : Fields r m) :
    NumberShown 10 r (rateText c m) ∧ (rateText c m).length ≤ 17 := by
  unfold rateText
  rw [← hr]
  exact ⟨general_shown 10 (by decide) r, by rw [bytes_eq, ascii_length]; exact general_length 10 (by decide) r hf.rate⟩

theorem lit_txt (s : String) : lit s = txt s := rfl

theorem summary_ok {c : Texts} {m : Msr} {r : Rat} (hr : r = hertz c.rnd (c.rate m.samprate)) (hf : Fields r m)
    {time : List UInt8} (ht : TimeShown .isoMonthDayDoyZ .nanoMicro m.starttime time) (hl : time.length ≤ 36) :
    Summary r m (summary c m time) := by
  obtain ⟨h1, h2⟩ := rate_ok hr hf
  have l1 := hf.sid
  have p1 := hf.pub
  have p2 := hf.reclen
  have p3 := hf.samples
  have l2 := dec_length (n := m.pubversion) (k := 3) (by decide) (by omega)
  have l3 := dec_length (n := m.reclen) (k := 10) (by decide) (by omega)
  have l4 := dec_length (n := m.samplecnt) (k := 19) (by decide) (by omega)
  have e : summary c m time = ident m ++ txt ", " ++ Verif.Props.Screen.dec m.pubversion ++ txt ", " ++
      Verif.Props.Screen.dec m.reclen ++ txt ", " ++ Verif.Props.Screen.dec m.samplecnt ++
        txt " samples, " ++ rateText c m ++ txt " Hz, " ++ time ++ txt "\n" := by
    unfold summary
    rw [message_short, num_dec, num_dec, num_dec]
    · rfl
    · rw [num_dec, num_dec, num_dec]
      have a1 : (lit ", ").length = 2 := by decide
      have a2 : (lit " samples, ").length = 10 := by decide
      have a3 : (lit " Hz, ").length = 5 := by decide
      have l1 : (m.sid.takeWhile (· ≠ 0)).length ≤ 63 := l1
      simp only [List.length_append, List.length_cons, List.length_nil, a1, a2, a3]
      omega
  rw [e]
  exact .mk h1 ht

theorem message_entry (title : String) (k : List UInt8) (text : List UInt8) (h : text.length ≤ 100)
    (hk : k = (txt title).leftpad 23 32 ++ txt ": ") (hl : k.length ≤ 40) : message (k ++ text ++ txt "\n") = entry title text := by
  rw [message_short, hk]
  · rfl
  · have : (txt "\n").length = 1 := by decide
    simp only [List.length_append, this]
    omega

theorem flagLines_ok (flags : Nat) (h : flags < 256) : flagText flags = flagEntry flags := by
  have key : ∀ k : Fin 256, flagText k.val = flagEntry k.val := by decide +kernel
  exact key ⟨flags, h⟩

theorem encoding_name (e : Int) : encodingName e = encodingStr (e % 256).toNat ∧ (txt (encodingName e)).length ≤ 40 := by
  have key : ∀ k : Fin 256, encodingName (k.val : Int) = encodingStr k.val ∧ (txt (encodingName (k.val : Int))).length ≤ 40 := by
    decide +kernel
  have h := key ⟨(e % 256).toNat, by omega⟩
  simp only at h
  have e1 : encodingName e = encodingName ((e % 256).toNat : Int) := by
    unfold encodingName
    rw [show ((e % 256).toNat : Int) % 256 = e % 256 by omega]
  rw [e1]
  exact h

theorem detailed_ok {c : Texts} {m : Msr} {r : Rat} (hr : r = hertz c.rnd (c.rate m.samprate)) (hf : Fields r m) (more : Bool)
    {time : List UInt8} (ht : TimeShown .isoMonthDayDoyZ .nanoMicro m.starttime time) (hl : time.length ≤ 36) :
    Details more r m (ExtraHeaders.print m.extra 16) (detailed c more m time) := by
  obtain ⟨h1, h2⟩ := rate_ok hr hf
  have p1 := hf.pub
  have p2 := hf.reclen
  have p3 := hf.samples
  have p4 := hf.version
  have p5 := hf.extra
  have p6 := hf.data
  have p7 := hf.encoding
  have l2 := dec_length (n := m.pubversion) (k := 3) (by decide) (by omega)
  have l3 := dec_length (n := m.reclen) (k := 10) (by decide) (by omega)
  have l4 := dec_length (n := m.samplecnt) (k := 19) (by decide) (by omega)
  have l5 := dec_length (n := m.formatversion) (k := 3) (by decide) (by omega)
  have l6 := dec_length (n := m.extra.length) (k := 5) (by decide) (by omega)
  have l7 := dec_length (n := m.datalength) (k := 10) (by decide) (by omega)
  have l8 := dec_length (n := m.encoding) (k := 5) (by decide) (by omega)
  have l9 := hex_length (n := m.crc) (k := 8) (by decide) (by have := hf.crc; omega)
  obtain ⟨l11, l10⟩ := encoding_name m.encoding
  have b1 : (txt " bytes").length = 6 := by decide
  have b2 : (txt " (val: ").length = 7 := by decide
  have b3 : (txt ")").length = 1 := by decide
  have b4 : (txt "0x").length = 2 := by decide
  have e1 : message (m.sid.takeWhile (· ≠ 0) ++ lit ", version " ++ num m.pubversion ++ lit ", " ++ num m.reclen ++
      lit " bytes (format: " ++ num m.formatversion ++ lit ")\n") = firstLine m := by
    rw [message_short, num_dec, num_dec, num_dec]
    · rfl
    · rw [num_dec, num_dec, num_dec]
      have a1 : (lit ", ").length = 2 := by decide
      have a2 : (lit ", version ").length = 10 := by decide
      have a3 : (lit " bytes (format: ").length = 16 := by decide
      have a4 : (lit ")\n").length = 2 := by decide
      have l1 : (m.sid.takeWhile (· ≠ 0)).length ≤ 63 := hf.sid
      simp only [List.length_append, a1, a2, a3, a4]
      omega
  have e2 := message_entry "start time" (lit "             start time: ") time (by omega) (by decide +kernel) (by decide +kernel)
  have e3 := message_entry "number of samples" (lit "      number of samples: ") (num m.samplecnt) (by rw [num_dec]; omega)
    (by decide +kernel) (by decide +kernel)
  have e4 := message_entry "sample rate (Hz)" (lit "       sample rate (Hz): ") (rateText c m) (by omega)
    (by decide +kernel) (by decide +kernel)
  have e5 := message_entry "CRC" (lit "                    CRC: ") (txt "0x" ++ hex m.crc)
    (by rw [List.length_append, b4]; omega) (by decide +kernel) (by decide +kernel)
  have e6 := message_entry "extra header length" (lit "    extra header length: ") (num m.extra.length ++ txt " bytes")
    (by rw [num_dec, List.length_append, b1]; omega) (by decide +kernel) (by decide +kernel)
  have e7 := message_entry "data payload length" (lit "    data payload length: ") (num m.datalength ++ txt " bytes")
    (by rw [num_dec, List.length_append, b1]; omega) (by decide +kernel) (by decide +kernel)
  have e8 := message_entry "payload encoding" (lit "       payload encoding: ")
    (txt (encodingName m.encoding) ++ txt " (val: " ++ num m.encoding ++ txt ")")
    (by rw [num_dec]; simp only [List.length_append, b2, b3]; omega) (by decide +kernel) (by decide +kernel)
  have s1 : (lit "                    CRC: 0x") = lit "                    CRC: " ++ txt "0x" := by decide +kernel
  have s2 : lit " bytes\n" = txt " bytes" ++ txt "\n" := by decide +kernel
  have s3 : lit ")\n" = txt ")" ++ txt "\n" := by decide +kernel
  have e : detailed c more m time = firstLine m ++
        entry "start time" time ++ entry "number of samples" (Verif.Props.Screen.dec m.samplecnt) ++
        entry "sample rate (Hz)" (rateText c m) ++
        (if more then flagEntry m.flags else []) ++
        entry "CRC" (txt "0x" ++ hex m.crc) ++ entry "extra header length" (Verif.Props.Screen.dec m.extra.length ++ txt " bytes") ++
        entry "data payload length" (Verif.Props.Screen.dec m.datalength ++ txt " bytes") ++
        entry "payload encoding" (txt (encodingName m.encoding) ++ txt " (val: " ++
          Verif.Props.Screen.dec m.encoding ++ txt ")") ++
        (if more ∧ m.extra ≠ [] then txt "          extra headers:\n" ++ ExtraHeaders.print m.extra 16 else []) := by
    simp only [num_dec] at e1 e3 e6 e7 e8
    rw [← e1, ← e2, ← e3, ← e4, ← e5, ← e6, ← e7, ← e8, ← flagLines_ok m.flags hf.flags]
    unfold detailed
    simp only [num_dec, s1, s2, s3, l11, List.append_assoc]
    rfl
  rw [e]
  exact .mk h1 ht (hex_shown m.crc)

theorem printRecord_ok {c : Texts} {m : Msr} (hf : Fields (hertz c.rnd (c.rate m.samprate)) m) (details : Int) :
    ∃ t, printRecord c details m = .ok t ∧
      RecordText details (hertz c.rnd (c.rate m.samprate)) m (ExtraHeaders.print m.extra 16) t := by
  obtain ⟨time, h1, h2, h3⟩ := timeText_all hf.start .isoMonthDayDoyZ .nanoMicro
  unfold printRecord RecordText
  rw [h1]
  simp only
  by_cases hd : details > 0
  · rw [if_pos hd]
    refine ⟨_, rfl, ?_⟩
    rw [if_pos hd]
    exact detailed_ok rfl hf _ h2 h3
  · rw [if_neg hd]
    refine ⟨_, rfl, ?_⟩
    rw [if_neg hd]
    exact summary_ok rfl hf h2 h3

/-! ## Telling texts apart -/

theorem first_split {α : Type} {x : α} : ∀ {a a' b b' : List α}, a ++ x :: b = a' ++ x :: b' → x ∉ a → x ∉ a' → a = a' ∧ b = b'
  | [], [], _, _, h, _, _ => ⟨rfl, (List.cons.inj h).2⟩
  | [], y :: a', _, _, h, _, h' => absurd (List.mem_cons.2 (Or.inl (List.cons.inj h).1)) h'
  | y :: a, [], _, _, h, h', _ => absurd (List.mem_cons.2 (Or.inl (List.cons.inj h).1.symm)) h'
  | y :: a, z :: a', b, b', h, h1, h2 => by
    obtain ⟨e1, e2⟩ := List.cons.inj h
    obtain ⟨r1, r2⟩ := first_split e2 (fun m => h1 (List.mem_cons_of_mem _ m)) (fun m => h2 (List.mem_cons_of_mem _ m))
    exact ⟨by rw [e1, r1], r2⟩

theorem last_split {x : UInt8} {a a' b b' : List UInt8} (h : a ++ x :: b = a' ++ x :: b') (h1 : x ∉ b) (h2 : x ∉ b') :
    a = a' ∧ b = b' := by
  have h' := congrArg List.reverse h
  simp only [List.reverse_append, List.reverse_cons, List.append_assoc, List.cons_append, List.nil_append] at h'
  obtain ⟨r1, r2⟩ := first_split h' (by simpa using h1) (by simpa using h2)
  exact ⟨List.reverse_inj.1 r2, List.reverse_inj.1 r1⟩

/-- The characters back from their bytes. -/
theorem ascii_inj {a b : List Char} (ha : ∀ c ∈ a, c.toNat < 256) (hb : ∀ c ∈ b, c.toNat < 256) (h : ascii a = ascii b) : a = b := by
  have key : ∀ l : List Char, (∀ c ∈ l, c.toNat < 256) → (ascii l).map (fun x => Char.ofNat x.toNat) = l := by
    intro l hl
    unfold ascii
    rw [List.map_map]
    conv => rhs; rw [← List.map_id l]
    refine List.map_congr_left fun c hc => ?_
    have := hl c hc
    show Char.ofNat (UInt8.ofNat c.toNat).toNat = c
    rw [show (UInt8.ofNat c.toNat).toNat = c.toNat % 256 from UInt8.toNat_ofNat, Nat.mod_eq_of_lt this, Char.ofNat_toNat]
  rw [← key a ha, ← key b hb, h]

theorem ascii_bytes {P : Nat → Prop} {s : List Char} (h : ∀ c ∈ s, c.toNat < 256 ∧ P c.toNat) : ∀ x ∈ ascii s, P x.toNat := by
  intro x hx
  unfold ascii at hx
  obtain ⟨c, hc, rfl⟩ := List.mem_map.1 hx
  obtain ⟨h1, h2⟩ := h c hc
  rw [show (UInt8.ofNat c.toNat).toNat = c.toNat % 256 from UInt8.toNat_ofNat, Nat.mod_eq_of_lt h1]
  exact h2

theorem printD_chars (n : Int) : ∀ c ∈ TimeStr.printD n, c = '-' ∨ Spec.TimeStr.Digit c := by
  intro c hc
  unfold TimeStr.printD at hc
  split at hc
  · rcases List.mem_cons.1 hc with rfl | hc
    · exact Or.inl rfl
    · exact Or.inr ((Verif.Proof.TimeStr.numeral_toDigits _).2.1 c hc)
  · exact Or.inr ((Verif.Proof.TimeStr.numeral_toDigits _).2.1 c hc)

theorem dec_bytes (n : Int) : ∀ x ∈ Verif.Props.Screen.dec n, x.toNat = 45 ∨ (48 ≤ x.toNat ∧ x.toNat ≤ 57) := by
  rw [← num_dec]
  unfold num
  rw [bytes_eq]
  apply ascii_bytes (P := fun n => n = 45 ∨ (48 ≤ n ∧ n ≤ 57))
  intro c hc
  rcases printD_chars n c hc with rfl | h
  · exact ⟨by decide, Or.inl rfl⟩
  · have h' := h
    unfold Spec.TimeStr.Digit at h'
    exact ⟨by omega, Or.inr h'⟩

theorem dec_inj {a b : Int} (h : Verif.Props.Screen.dec a = Verif.Props.Screen.dec b) : a = b := by
  rw [← num_dec, ← num_dec] at h
  unfold num at h
  rw [bytes_eq, bytes_eq] at h
  have key : ∀ n : Int, ∀ c ∈ TimeStr.printD n, c.toNat < 256 := by
    intro n c hc
    rcases printD_chars n c hc with rfl | h
    · decide
    · have := h.2
      omega
  have h := ascii_inj (key a) (key b) h
  have val : ∀ n m : Nat, Nat.toDigits 10 n = Nat.toDigits 10 m → n = m := by
    intro n m e
    rw [← (Verif.Proof.TimeStr.numeral_toDigits n).2.2, ← (Verif.Proof.TimeStr.numeral_toDigits m).2.2, e]
  have sgn : ∀ (n : Nat) (t : List Char), '-' :: t ≠ Nat.toDigits 10 n := by
    intro n t e
    have := (Verif.Proof.TimeStr.numeral_toDigits n).2.1 '-' (by rw [← e]; exact List.mem_cons_self)
    revert this
    decide
  unfold TimeStr.printD at h
  split at h <;> split at h
  · have := val _ _ (List.cons.inj h).2
    omega
  · exact absurd h (sgn _ _)
  · exact absurd h.symm (sgn _ _)
  · have := val _ _ h
    omega

theorem number_bytes {p : Nat} {r : Rat} {t : List UInt8} (h : NumberShown p r t) :
    ∀ x ∈ t, x.toNat ≠ 44 ∧ x.toNat ≠ 10 := by
  obtain ⟨s, y, rfl, h, -⟩ := h
  apply ascii_bytes (P := fun n => n ≠ 44 ∧ n ≠ 10)
  intro c hc
  rcases (writes_inked h).2 c hc with h | rfl | rfl | rfl | rfl
  · unfold Spec.TimeStr.Digit at h
    omega
  all_goals decide

/-! ## A text writes one number -/
open Verif.Spec.Decimal Verif.Spec.TimeStr in
theorem plain_det {s : List Char} {x y : Rat} (h : Plain s x) (h' : Plain s y) : x = y := by
  have nodot : ∀ {s : List Char} {n : Nat}, Numeral s n → '.' ∉ s := by
    intro s n hn hm
    have := hn.2.1 _ hm
    revert this
    decide
  cases h with
  | @whole _ n hn =>
    generalize hs : s = s' at h'
    cases h' with
    | whole hn' =>
      subst hs
      rw [← hn.2.2, ← hn'.2.2]
    | point hn' hf' =>
      subst hs
      exact absurd (by simp) (nodot hn)
  | @point a n f m hn hf =>
    generalize hs : a ++ '.' :: f = s' at h'
    cases h' with
    | whole hn' =>
      subst hs
      exact absurd (by simp) (nodot hn')
    | point hn' hf' =>
      obtain ⟨e1, e2⟩ := first_split hs (nodot hn) (nodot hn')
      subst e1 e2
      rw [← hn.2.2, ← hn'.2.2, ← hf.2.2, ← hf'.2.2]

open Verif.Spec.Decimal Verif.Spec.TimeStr in
theorem plain_chars {s : List Char} {x : Rat} (h : Plain s x) : 'e' ∉ s ∧ ∃ c t, s = c :: t ∧ Digit c := by
  have hd : ∀ {s : List Char} {n : Nat}, Numeral s n → 'e' ∉ s ∧ ∃ c t, s = c :: t ∧ Digit c := by
    intro s n hn
    refine ⟨fun hm => ?_, ?_⟩
    · have := hn.2.1 _ hm
      revert this
      decide
    · cases s with
      | nil => exact absurd rfl hn.1
      | cons c t => exact ⟨c, t, rfl, hn.2.1 c List.mem_cons_self⟩
  cases h with
  | whole hn => exact hd hn
  | point hn hf =>
    obtain ⟨h1, c, t, rfl, h2⟩ := hd hn
    refine ⟨fun hm => ?_, c, _, rfl, h2⟩
    rcases List.mem_append.1 hm with hm | hm
    · exact h1 hm
    · rcases List.mem_cons.1 hm with hm | hm
      · exact absurd hm (by decide)
      · exact (hd hf).1 hm

open Verif.Spec.Decimal Verif.Spec.TimeStr in
theorem positive_det {s : List Char} {x y : Rat} (h : Positive s x) (h' : Positive s y) : x = y := by
  cases h with
  | plain hp =>
    generalize hs : s = s' at h'
    cases h' with
    | plain hp' => subst hs; exact plain_det hp hp'
    | up => subst hs; exact absurd (by simp) (plain_chars hp).1
    | down => subst hs; exact absurd (by simp) (plain_chars hp).1
  | @up a u e n hp hn =>
    generalize hs : a ++ 'e' :: '+' :: e = s' at h'
    cases h' with
    | plain hp' => subst hs; exact absurd (by simp) (plain_chars hp').1
    | up hp' hn' =>
      obtain ⟨e1, e2⟩ := first_split hs (plain_chars hp).1 (plain_chars hp').1
      subst e1
      have e2 := (List.cons.inj e2).2
      subst e2
      rw [plain_det hp hp', ← hn.2.2, ← hn'.2.2]
    | down hp' hn' =>
      obtain ⟨e1, e2⟩ := first_split hs (plain_chars hp).1 (plain_chars hp').1
      exact absurd (List.cons.inj e2).1 (by decide)
  | @down a u e n hp hn =>
    generalize hs : a ++ 'e' :: '-' :: e = s' at h'
    cases h' with
    | plain hp' => subst hs; exact absurd (by simp) (plain_chars hp').1
    | up hp' hn' =>
      obtain ⟨e1, e2⟩ := first_split hs (plain_chars hp).1 (plain_chars hp').1
      exact absurd (List.cons.inj e2).1 (by decide)
    | down hp' hn' =>
      obtain ⟨e1, e2⟩ := first_split hs (plain_chars hp).1 (plain_chars hp').1
      subst e1
      have e2 := (List.cons.inj e2).2
      subst e2
      rw [plain_det hp hp', ← hn.2.2, ← hn'.2.2]

open Verif.Spec.Decimal Verif.Spec.TimeStr in
theorem positive_head {s : List Char} {x : Rat} (h : Positive s x) : ∀ t, s ≠ '-' :: t := by
  have key : ∀ {s : List Char} {x : Rat} (r t : List Char), Plain s x → s ++ r ≠ '-' :: t := by
    intro s x r t hp e
    obtain ⟨-, c, u, rfl, hc⟩ := plain_chars hp
    have := (List.cons.inj e).1
    subst this
    revert hc
    decide
  intro t
  cases h with
  | plain hp => have := key [] t hp; rwa [List.append_nil] at this
  | up hp => exact key _ t hp
  | down hp => exact key _ t hp

open Verif.Spec.Decimal Verif.Spec.TimeStr in
theorem writes_det {s : List Char} {x y : Rat} (h : Writes s x) (h' : Writes s y) : x = y := by
  cases h with
  | pos hp =>
    generalize hs : s = s' at h'
    cases h' with
    | pos hp' => subst hs; exact positive_det hp hp'
    | neg hp' => exact absurd hs (positive_head hp _)
  | @neg a u hp =>
    generalize hs : '-' :: a = s' at h'
    cases h' with
    | pos hp' => exact absurd hs.symm (positive_head hp' _)
    | neg hp' =>
      have e := (List.cons.inj hs).2
      subst e
      rw [positive_det hp hp']

/-- A text shows one number of at most as many digits. -/
theorem number_inj {p : Nat} {r r' : Rat} {t : List UInt8} (h : NumberShown p r t) (h' : NumberShown p r' t)
    (hd : Spec.Decimal.HasDigits p r) (hd' : Spec.Decimal.HasDigits p r') : r = r' := by
  obtain ⟨s, y, rfl, h1, -, h2⟩ := h
  obtain ⟨s', y', e, h1', -, h2'⟩ := h'
  have inked : ∀ c : Char, Inked c → c.toNat < 256 := by
    intro c hc
    rcases hc with h | rfl | rfl | rfl | rfl
    · unfold Spec.TimeStr.Digit at h
      omega
    all_goals decide
  have e := ascii_inj (fun c hc => inked c ((writes_inked h1).2 c hc)) (fun c hc => inked c ((writes_inked h1').2 c hc)) e
  subst e
  rw [← h2 hd, ← h2' hd', writes_det h1 h1']

/-! ## Times -/

/-- Characters of times. -/
def Timely (c : Char) : Prop := c.toNat < 256 ∧ c.toNat ≠ 44 ∧ c.toNat ≠ 10

theorem dec_timely (w n : Nat) : ∀ c ∈ Spec.TimeStr.dec w n, Timely c := by
  intro c h
  have h := Verif.Proof.TimeStr.dec_digits w n c h
  unfold Spec.TimeStr.Digit at h
  unfold Timely
  omega

theorem shown_timely (k : Nat) (f : Spec.Fields) (month mday : Int) :
    ∀ c ∈ shown .isoMonthDayDoyZ k f month mday, Timely c := by
  have fr : ∀ n, ∀ c ∈ Spec.TimeStr.fraction k n, Timely c := by
    intro n
    unfold Spec.TimeStr.fraction
    split
    · simp
    · simp only [List.forall_mem_cons]
      exact ⟨by unfold Timely; decide, dec_timely _ _⟩
  have l : ∀ c ∈ "Z (".toList, Timely c := by
    simp only [show "Z (".toList = ['Z', ' ', '('] by decide, List.forall_mem_cons]
    unfold Timely
    refine ⟨by decide, by decide, by decide, by simp⟩
  have o : ∀ d ∈ ['-', ':', 'T', ')'], Timely d := by
    unfold Timely
    decide
  unfold shown Spec.TimeStr.date Spec.TimeStr.clock
  simp only [List.forall_mem_append, List.forall_mem_cons]
  refine ⟨⟨⟨⟨⟨⟨?_, ?_, ?_⟩, ?_, ?_⟩, ?_, ⟨⟨?_, ?_, ?_⟩, ?_, ?_⟩, ?_⟩, ?_⟩, ?_⟩, ?_, ?_⟩
  all_goals first
    | exact dec_timely _ _
    | exact fr _
    | exact l
    | exact o _ (by decide)
    | simp

theorem append_len {α : Type} {a a' b b' : List α} (h : a ++ b = a' ++ b') (hl : a.length = a'.length) : a = a' ∧ b = b' :=
  List.append_inj h hl

theorem dec_eq {w a b : Nat} (ha : a < 10 ^ w) (hb : b < 10 ^ w) (h : Spec.TimeStr.dec w a = Spec.TimeStr.dec w b) : a = b := by
  rw [← Verif.Proof.TimeStr.dec_value w a ha, ← Verif.Proof.TimeStr.dec_value w b hb, h]

/-- The text of a time tells the time. -/
theorem shown_inj {t t' : Int} (ht : InInt64 t) (ht' : InInt64 t') {f f' : Spec.Fields} {month mday month' mday' : Int}
    (h : Dated t f month mday) (h' : Dated t' f' month' mday')
    (e : shown .isoMonthDayDoyZ (fractionDigits .nanoMicro t) f month mday =
      shown .isoMonthDayDoyZ (fractionDigits .nanoMicro t') f' month' mday') : t = t' := by
  have k1 : fractionDigits .nanoMicro t = fractionDigits .nanoMicro t' := by
    have := congrArg List.length e
    rw [Verif.Proof.TimeStr.shown_length _ _ _ _ _ ⟨by decide, by decide⟩,
      Verif.Proof.TimeStr.shown_length _ _ _ _ _ ⟨by decide, by decide⟩] at this
    unfold fractionDigits at this ⊢
    simp only at this ⊢
    by_cases z : t % 1000 = 0 <;> by_cases z' : t' % 1000 = 0 <;> simp [z, z'] at this ⊢
  have y := Verif.Proof.TimeStr.year_range t ht f h.valid h.instant
  have y' := Verif.Proof.TimeStr.year_range t' ht' f' h'.valid h'.instant
  obtain ⟨a1, a2, a3, a4, a5⟩ := h.valid
  obtain ⟨b1, b2, b3, b4, b5⟩ := h'.valid
  have yl := yearLen_cases f.year
  have yl' := yearLen_cases f'.year
  have n1 : f.nsec = t % 1000000000 := by
    have := h.instant
    unfold Fields.instant at this
    omega
  have n2 : f'.nsec = t' % 1000000000 := by
    have := h'.instant
    unfold Fields.instant at this
    omega
  unfold shown Spec.TimeStr.date Spec.TimeStr.clock at e
  simp only [List.append_assoc, List.cons_append] at e
  obtain ⟨e1, e⟩ := append_len e (by rw [Verif.Proof.TimeStr.dec_length, Verif.Proof.TimeStr.dec_length])
  have e := (List.cons.inj e).2
  obtain ⟨-, e⟩ := append_len e (by rw [Verif.Proof.TimeStr.dec_length, Verif.Proof.TimeStr.dec_length])
  have e := (List.cons.inj e).2
  obtain ⟨-, e⟩ := append_len e (by rw [Verif.Proof.TimeStr.dec_length, Verif.Proof.TimeStr.dec_length])
  have e := (List.cons.inj e).2
  obtain ⟨e2, e⟩ := append_len e (by rw [Verif.Proof.TimeStr.dec_length, Verif.Proof.TimeStr.dec_length])
  have e := (List.cons.inj e).2
  obtain ⟨e3, e⟩ := append_len e (by rw [Verif.Proof.TimeStr.dec_length, Verif.Proof.TimeStr.dec_length])
  have e := (List.cons.inj e).2
  obtain ⟨e4, e⟩ := append_len e (by rw [Verif.Proof.TimeStr.dec_length, Verif.Proof.TimeStr.dec_length])
  obtain ⟨e5, e⟩ := append_len e (by rw [Verif.Proof.TimeStr.fraction_length, Verif.Proof.TimeStr.fraction_length, k1])
  obtain ⟨-, e⟩ := append_len e rfl
  obtain ⟨e6, -⟩ := append_len e (by rw [Verif.Proof.TimeStr.dec_length, Verif.Proof.TimeStr.dec_length])
  have e1 := dec_eq (by omega) (by omega) e1
  have e2 := dec_eq (by omega) (by omega) e2
  have e3 := dec_eq (by omega) (by omega) e3
  have e4 := dec_eq (by omega) (by omega) e4
  have e6 := dec_eq (by omega) (by omega) e6
  have e5 : f.nsec = f'.nsec := by
    rw [k1] at e5
    have hk : fractionDigits .nanoMicro t' = if t' % 1000 = 0 then 6 else 9 := rfl
    have hk' : (if t % 1000 = 0 then 6 else 9) = if t' % 1000 = 0 then 6 else 9 := k1
    rw [hk] at e5
    unfold Spec.TimeStr.fraction at e5
    by_cases hz : t' % 1000 = 0
    · rw [if_pos hz] at e5 hk'
      rw [if_neg (by decide), if_neg (by decide)] at e5
      have := dec_eq (w := 6) (by omega) (by omega) (List.cons.inj e5).2
      have hz' : t % 1000 = 0 := by
        split at hk'
        · assumption
        · omega
      omega
    · rw [if_neg hz] at e5
      rw [if_neg (by decide), if_neg (by decide)] at e5
      have := dec_eq (w := 9) (by omega) (by omega) (List.cons.inj e5).2
      omega
  rw [← h.instant, ← h'.instant]
  have q1 : f.year = f'.year := by omega
  have q2 : f.yday = f'.yday := by omega
  have q3 : f.hour = f'.hour := by omega
  have q4 : f.min = f'.min := by omega
  have q5 : f.sec = f'.sec := by omega
  unfold Fields.instant
  rw [q1, q2, q3, q4, q5, e5]

theorem time_shown {t : Int} (ht : InInt64 t) {s : List UInt8} (h : TimeShown .isoMonthDayDoyZ .nanoMicro t s) :
    ∃ f month mday, Dated t f month mday ∧ s = ascii (shown .isoMonthDayDoyZ (fractionDigits .nanoMicro t) f month mday) := by
  obtain ⟨f, a, b, hd⟩ := dated_exists t ht
  obtain ⟨x, hx, rfl⟩ := h
  rw [C08_calendar_text t ht f a b hd _ ⟨by decide, by decide⟩] at hx
  injection hx with _ hx
  rw [← Option.some.inj hx]
  exact ⟨f, a, b, hd, rfl⟩

theorem time_inj {t t' : Int} (ht : InInt64 t) (ht' : InInt64 t') {s : List UInt8} (h : TimeShown .isoMonthDayDoyZ .nanoMicro t s)
    (h' : TimeShown .isoMonthDayDoyZ .nanoMicro t' s) : t = t' := by
  obtain ⟨f, a, b, hd, rfl⟩ := time_shown ht h
  obtain ⟨f', a', b', hd', e⟩ := time_shown ht' h'
  exact shown_inj ht ht' hd hd'
    (ascii_inj (fun c hc => (shown_timely _ _ _ _ c hc).1) (fun c hc => (shown_timely _ _ _ _ c hc).1) e)

theorem time_bytes {t : Int} (ht : InInt64 t) {s : List UInt8} (h : TimeShown .isoMonthDayDoyZ .nanoMicro t s) :
    ∀ x ∈ s, x.toNat ≠ 44 ∧ x.toNat ≠ 10 := by
  obtain ⟨f, a, b, -, rfl⟩ := time_shown ht h
  exact ascii_bytes (P := fun n => n ≠ 44 ∧ n ≠ 10) (fun c hc => shown_timely _ _ _ _ c hc)

/-! ## The line of a record tells the record -/

theorem not_mem_of {n : Nat} {x : UInt8} (hx : x.toNat = n) {s : List UInt8} (h : ∀ y ∈ s, y.toNat ≠ n) : x ∉ s :=
  fun hm => h x hm hx

theorem dec_no {n : Nat} {x : UInt8} (hx : x.toNat = n) (h1 : n ≠ 45) (h2 : n < 48 ∨ 57 < n) (k : Int) :
    x ∉ Verif.Props.Screen.dec k :=
  not_mem_of hx fun y hy => by have := dec_bytes k y hy; omega

theorem summary_inj {r r' : Rat} {m m' : Msr} {t : List UInt8} (ht : InInt64 m.starttime) (ht' : InInt64 m'.starttime)
    (h : Summary r m t) (h' : Summary r' m' t) :
    ident m = ident m' ∧ m.pubversion = m'.pubversion ∧ m.reclen = m'.reclen ∧ m.samplecnt = m'.samplecnt ∧
      m.starttime = m'.starttime ∧ (Spec.Decimal.HasDigits 10 r → Spec.Decimal.HasDigits 10 r' → r = r') := by
  have l1 : txt ", " = [44, 32] := by decide
  have l2 : txt " samples, " = txt " samples" ++ [44, 32] := by decide
  have l3 : txt " Hz, " = txt " Hz" ++ [44, 32] := by decide
  have form : ∀ (m : Msr) (rate time : List UInt8), ident m ++ txt ", " ++ Verif.Props.Screen.dec m.pubversion ++ txt ", " ++
      Verif.Props.Screen.dec m.reclen ++ txt ", " ++ Verif.Props.Screen.dec m.samplecnt ++
        txt " samples, " ++ rate ++ txt " Hz, " ++ time ++ txt "\n" =
      ((((ident m ++ 44 :: (32 :: Verif.Props.Screen.dec m.pubversion)) ++ 44 :: (32 :: Verif.Props.Screen.dec m.reclen)) ++
        44 :: (32 :: (Verif.Props.Screen.dec m.samplecnt ++ txt " samples"))) ++ 44 :: (32 :: (rate ++ txt " Hz"))) ++
          44 :: (32 :: (time ++ txt "\n")) := by
    intro m rate time
    rw [l1, l2, l3]
    simp only [List.append_assoc, List.cons_append, List.nil_append]
  obtain @⟨rate, time, a1, a2⟩ := h
  rw [form] at h'
  generalize hs : _ ++ 44 :: (32 :: (time ++ txt "\n")) = s at h'
  obtain @⟨rate', time', b1, b2⟩ := h'
  rw [form] at hs
  have c0 : ∀ k, (44 : UInt8) ∉ Verif.Props.Screen.dec k := dec_no (n := 44) rfl (by decide) (by decide)
  have c1 : ∀ s, NumberShown 10 r s ∨ NumberShown 10 r' s → (44 : UInt8) ∉ s := by
    intro s h
    rcases h with h | h <;> exact not_mem_of (n := 44) rfl fun y hy => (number_bytes h y hy).1
  have c2 : (44 : UInt8) ∉ time := not_mem_of (n := 44) rfl fun y hy => (time_bytes ht a2 y hy).1
  have c3 : (44 : UInt8) ∉ time' := not_mem_of (n := 44) rfl fun y hy => (time_bytes ht' b2 y hy).1
  have d1 : (44 : UInt8) ∉ txt "\n" := by decide
  have d2 : (44 : UInt8) ∉ txt " Hz" := by decide
  have d3 : (44 : UInt8) ∉ txt " samples" := by decide
  have no : ∀ {a b : List UInt8}, (44 : UInt8) ∉ a → (44 : UInt8) ∉ b → (44 : UInt8) ∉ 32 :: (a ++ b) := by
    intro a b h1 h2 h
    rcases List.mem_cons.1 h with h | h
    · exact absurd h (by decide)
    · exact (List.mem_append.1 h).elim h1 h2
  have no' : ∀ {a : List UInt8}, (44 : UInt8) ∉ a → (44 : UInt8) ∉ 32 :: a := by
    intro a h1 h
    rcases List.mem_cons.1 h with h | h
    · exact absurd h (by decide)
    · exact h1 h
  obtain ⟨hs, e1⟩ := last_split hs (no c2 d1) (no c3 d1)
  obtain ⟨hs, e6⟩ := last_split hs (no (c1 _ (Or.inl a1)) d2) (no (c1 _ (Or.inr b1)) d2)
  obtain ⟨hs, e2⟩ := last_split hs (no (c0 _) d3) (no (c0 _) d3)
  obtain ⟨hs, e3⟩ := last_split hs (no' (c0 _)) (no' (c0 _))
  obtain ⟨e5, e4⟩ := last_split hs (no' (c0 _)) (no' (c0 _))
  have e1 := List.append_cancel_right (List.cons.inj e1).2
  subst e1
  have e2 := dec_inj (List.append_cancel_right (List.cons.inj e2).2)
  have e3 := dec_inj (List.cons.inj e3).2
  have e4 := dec_inj (List.cons.inj e4).2
  have e6 := List.append_cancel_right (List.cons.inj e6).2
  subst e6
  exact ⟨e5, by omega, e3, e2, time_inj ht ht' a2 b2, number_inj a1 b1⟩

theorem entry_split {title : String} {a a' r r' : List UInt8} (h : entry title a ++ r = entry title a' ++ r')
    (h1 : (10 : UInt8) ∉ a) (h2 : (10 : UInt8) ∉ a') : a = a' ∧ r = r' := by
  unfold entry at h
  simp only [List.append_assoc] at h
  have h := List.append_cancel_left (List.append_cancel_left h)
  exact first_split (x := 10) h h1 h2

/-- The flags back from their digits. -/
theorem digits_value (n : Nat) (h : n < 256) :
    (((List.range 8).reverse.map fun i => if n.testBit i then (49 : UInt8) else 48)).foldl (fun v b => 2 * v + (b.toNat - 48)) 0 = n := by
  have key : ∀ k : Fin 256, (((List.range 8).reverse.map fun i => if k.val.testBit i then (49 : UInt8) else 48)).foldl
      (fun v b => 2 * v + (b.toNat - 48)) 0 = k.val := by decide +kernel
  exact key ⟨n, h⟩

theorem digits_no (n : Nat) : (10 : UInt8) ∉ txt "[" ++ ((List.range 8).reverse.map fun i => if n.testBit i then (49 : UInt8) else 48) ++
    txt "] 8 bits" := by
  intro h
  rcases List.mem_append.1 h with h | h
  · rcases List.mem_append.1 h with h | h
    · exact absurd h (by decide)
    · obtain ⟨i, -, h⟩ := List.mem_map.1 h
      split at h <;> exact absurd h (by decide)
  · exact absurd h (by decide)

theorem flag_split {n n' : Nat} {r r' : List UInt8} (h : flagEntry n ++ r = flagEntry n' ++ r') (hn : n < 256) (hn' : n' < 256) :
    n = n' ∧ r = r' := by
  have h0 := h
  unfold flagEntry at h
  simp only [List.append_assoc] at h
  rw [← List.append_assoc (txt "["), ← List.append_assoc (txt "[")] at h
  obtain ⟨e, -⟩ := entry_split h (digits_no n) (digits_no n')
  have e := List.append_cancel_left (List.append_cancel_right e)
  have : n = n' := by rw [← digits_value n hn, ← digits_value n' hn', e]
  subst this
  exact ⟨rfl, List.append_cancel_left h0⟩

theorem hex_inj {n n' : Nat} {s : List UInt8} (h : HexShown n s) (h' : HexShown n' s) : n = n' := by
  rw [← h.2.2, ← h'.2.2]

theorem details_form {more : Bool} {r : Rat} {m : Msr} {x t : List UInt8} (h : Details more r m x t) :
    ∃ rate time crc, NumberShown 10 r rate ∧ TimeShown .isoMonthDayDoyZ .nanoMicro m.starttime time ∧ HexShown m.crc crc ∧
      t = firstLine m ++ (entry "start time" time ++ (entry "number of samples" (Verif.Props.Screen.dec m.samplecnt) ++
        (entry "sample rate (Hz)" rate ++ ((if more then flagEntry m.flags else []) ++
        (entry "CRC" (txt "0x" ++ crc) ++ (entry "extra header length" (Verif.Props.Screen.dec m.extra.length ++ txt " bytes") ++
        (entry "data payload length" (Verif.Props.Screen.dec m.datalength ++ txt " bytes") ++
        (entry "payload encoding" (txt (encodingName m.encoding) ++ (txt " (val: " ++ (Verif.Props.Screen.dec m.encoding ++ txt ")"))) ++
        (if more ∧ m.extra ≠ [] then txt "          extra headers:\n" ++ x else []))))))))) := by
  obtain ⟨h1, h2, h3⟩ := h
  refine ⟨_, _, _, h1, h2, h3, ?_⟩
  simp only [List.append_assoc]

theorem details_inj {more : Bool} {r r' : Rat} {m m' : Msr} {x x' t : List UInt8} (ht : InInt64 m.starttime)
    (ht' : InInt64 m'.starttime) (hn : (10 : UInt8) ∉ ident m) (hn' : (10 : UInt8) ∉ ident m') (hf : m.flags < 256)
    (hf' : m'.flags < 256) (h : Details more r m x t) (h' : Details more r' m' x' t) :
    ident m = ident m' ∧ m.pubversion = m'.pubversion ∧ m.reclen = m'.reclen ∧ m.samplecnt = m'.samplecnt ∧
      m.starttime = m'.starttime ∧ m.formatversion = m'.formatversion ∧ m.crc = m'.crc ∧ m.extra.length = m'.extra.length ∧
      m.datalength = m'.datalength ∧ m.encoding = m'.encoding ∧ (more = true → m.flags = m'.flags ∧ (m.extra ≠ [] → x = x')) ∧
      (Spec.Decimal.HasDigits 10 r → Spec.Decimal.HasDigits 10 r' → r = r') := by
  have l1 : txt ", " = [44, 32] := by decide
  have l2 : txt ")\n" = txt ")" ++ [10] := by decide
  have l3 : txt ", version " = [44] ++ txt " version" ++ [32] := by decide
  have l4 : txt " bytes (format: " = 32 :: (txt "bytes (format:" ++ [32]) := by decide
  have form : ∀ m : Msr, firstLine m =
      ((ident m ++ 44 :: (txt " version" ++ 32 :: Verif.Props.Screen.dec m.pubversion)) ++ 44 ::
        (32 :: (Verif.Props.Screen.dec m.reclen ++ 32 :: (txt "bytes (format:" ++ 32 ::
          (Verif.Props.Screen.dec m.formatversion ++ txt ")"))))) ++ [10] := by
    intro m
    unfold firstLine
    rw [l1, l2, l3, l4]
    simp only [List.append_assoc, List.cons_append, List.nil_append]
  have c0 : ∀ k, (44 : UInt8) ∉ Verif.Props.Screen.dec k := dec_no (n := 44) rfl (by decide) (by decide)
  have c1 : ∀ k, (10 : UInt8) ∉ Verif.Props.Screen.dec k := dec_no (n := 10) rfl (by decide) (by decide)
  have c2 : ∀ k, (32 : UInt8) ∉ Verif.Props.Screen.dec k := dec_no (n := 32) rfl (by decide) (by decide)
  have nl : ∀ m : Msr, (10 : UInt8) ∉ ident m → (10 : UInt8) ∉ ((ident m ++ 44 :: (txt " version" ++ 32 :: Verif.Props.Screen.dec m.pubversion)) ++ 44 ::
        (32 :: (Verif.Props.Screen.dec m.reclen ++ 32 :: (txt "bytes (format:" ++ 32 ::
          (Verif.Props.Screen.dec m.formatversion ++ txt ")"))))) := by
    intro m h
    simp only [List.mem_append, List.mem_cons, not_or]
    refine ⟨⟨h, by decide, by decide, by decide, c1 _⟩, by decide, by decide, c1 _, by decide, by decide, by decide, c1 _, by decide⟩
  have nc : ∀ m : Msr, (44 : UInt8) ∉ (32 :: (Verif.Props.Screen.dec m.reclen ++ 32 :: (txt "bytes (format:" ++ 32 ::
          (Verif.Props.Screen.dec m.formatversion ++ txt ")")))) := by
    intro m
    simp only [List.mem_append, List.mem_cons, not_or]
    refine ⟨by decide, c0 _, by decide, by decide, by decide, c0 _, by decide⟩
  have nv : ∀ m : Msr, (44 : UInt8) ∉ (txt " version" ++ 32 :: Verif.Props.Screen.dec m.pubversion) := by
    intro m
    simp only [List.mem_append, List.mem_cons, not_or]
    exact ⟨by decide, by decide, c0 _⟩
  have c3 : ∀ s, NumberShown 10 r s ∨ NumberShown 10 r' s → (10 : UInt8) ∉ s := by
    intro s h
    rcases h with h | h <;> exact not_mem_of (n := 10) rfl fun y hy => (number_bytes h y hy).2
  have c4 : ∀ k, (10 : UInt8) ∉ Verif.Props.Screen.dec k ++ txt " bytes" := by
    intro k h
    rcases List.mem_append.1 h with h | h
    · exact c1 k h
    · exact absurd h (by decide)
  have c5 : ∀ n s, HexShown n s → (10 : UInt8) ∉ txt "0x" ++ s := by
    intro n s hs h
    rcases List.mem_append.1 h with h | h
    · exact absurd h (by decide)
    · have := hs.2.1 _ h
      revert this
      decide
  have c6 : ∀ e : Int, (10 : UInt8) ∉ txt (encodingName e) ++ (txt " (val: " ++ (Verif.Props.Screen.dec e ++ txt ")")) := by
    intro e h
    simp only [List.mem_append] at h
    rcases h with h | h | h | h
    · obtain ⟨k, hk⟩ : ∃ k : Fin 256, encodingName e = encodingStr k.val :=
        ⟨⟨(e % 256).toNat, by omega⟩, (encoding_name e).1⟩
      rw [hk] at h
      revert h
      have key : ∀ k : Fin 256, (10 : UInt8) ∉ txt (encodingStr k.val) := by decide +kernel
      exact key k
    · exact absurd h (by decide)
    · exact c1 _ h
    · exact absurd h (by decide)
  obtain ⟨rate, time, crc, a1, a2, a3, rfl⟩ := details_form h
  obtain ⟨rate', time', crc', b1, b2, b3, hs⟩ := details_form h'
  rw [form m, form m', List.append_assoc _ [10], List.append_assoc _ [10]] at hs
  obtain ⟨e0, hs⟩ := first_split (x := 10) hs (nl m hn) (nl m' hn')
  obtain ⟨e0, e1⟩ := last_split e0 (nc m) (nc m')
  obtain ⟨e2, e0⟩ := last_split e0 (nv m) (nv m')
  have e0 := dec_inj (List.cons.inj (List.append_cancel_left e0)).2
  obtain ⟨e1, e3⟩ := first_split (List.cons.inj e1).2 (c2 _) (c2 _)
  have e1 := dec_inj e1
  have e3 := dec_inj (List.append_cancel_right (List.cons.inj (List.append_cancel_left e3)).2)
  obtain ⟨e4, hs⟩ := entry_split hs (not_mem_of (n := 10) rfl fun y hy => (time_bytes ht a2 y hy).2)
    (not_mem_of (n := 10) rfl fun y hy => (time_bytes ht' b2 y hy).2)
  rw [← e4] at b2
  obtain ⟨e5, hs⟩ := entry_split hs (c1 _) (c1 _)
  obtain ⟨e6, hs⟩ := entry_split hs (c3 _ (Or.inl a1)) (c3 _ (Or.inr b1))
  rw [← e6] at b1
  have e5 := dec_inj e5
  have fin : ∀ {z z' : List UInt8}, (entry "CRC" (txt "0x" ++ crc) ++ (entry "extra header length" (Verif.Props.Screen.dec m.extra.length ++ txt " bytes") ++
        (entry "data payload length" (Verif.Props.Screen.dec m.datalength ++ txt " bytes") ++
        (entry "payload encoding" (txt (encodingName m.encoding) ++ (txt " (val: " ++ (Verif.Props.Screen.dec m.encoding ++ txt ")"))) ++ z)))) =
      (entry "CRC" (txt "0x" ++ crc') ++ (entry "extra header length" (Verif.Props.Screen.dec m'.extra.length ++ txt " bytes") ++
        (entry "data payload length" (Verif.Props.Screen.dec m'.datalength ++ txt " bytes") ++
        (entry "payload encoding" (txt (encodingName m'.encoding) ++ (txt " (val: " ++ (Verif.Props.Screen.dec m'.encoding ++ txt ")"))) ++ z')))) →
      m.crc = m'.crc ∧ m.extra.length = m'.extra.length ∧ m.datalength = m'.datalength ∧ m.encoding = m'.encoding ∧ z = z' := by
    intro z z' hs
    obtain ⟨f1, hs⟩ := entry_split hs (c5 _ _ a3) (c5 _ _ b3)
    obtain ⟨f2, hs⟩ := entry_split hs (c4 _) (c4 _)
    obtain ⟨f3, hs⟩ := entry_split hs (c4 _) (c4 _)
    obtain ⟨f4, hs⟩ := entry_split hs (c6 _) (c6 _)
    have f1 := List.append_cancel_left f1
    rw [← f1] at b3
    have f2 := dec_inj (List.append_cancel_right f2)
    have f3 := dec_inj (List.append_cancel_right f3)
    have f4' : m.encoding = m'.encoding := by
      simp only [← List.append_assoc] at f4
      have f4 := List.append_cancel_right f4
      have sp : txt " (val: " = txt " (val:" ++ [32] := by decide
      rw [sp] at f4
      simp only [List.append_assoc, List.cons_append, List.nil_append] at f4
      simp only [← List.append_assoc (txt (encodingName _))] at f4
      exact dec_inj (last_split f4 (c2 _) (c2 _)).2
    exact ⟨hex_inj a3 b3, by omega, by omega, f4', hs⟩
  cases more with
  | false =>
    simp only [Bool.false_eq_true, if_false, List.nil_append] at hs
    obtain ⟨g1, g2, g3, g4, -⟩ := fin hs
    exact ⟨e2, by omega, e1, e5, time_inj ht ht' a2 b2, by omega, g1, g2, g3, g4, nofun, number_inj a1 b1⟩
  | true =>
    simp only [if_true] at hs
    obtain ⟨g0, hs⟩ := flag_split hs hf hf'
    obtain ⟨g1, g2, g3, g4, g5⟩ := fin hs
    refine ⟨e2, by omega, e1, e5, time_inj ht ht' a2 b2, by omega, g1, g2, g3, g4, fun _ => ⟨g0, fun hne => ?_⟩, number_inj a1 b1⟩
    have hne' : m'.extra ≠ [] := by
      intro h0
      rw [h0] at g2
      exact hne (List.length_eq_zero_iff.1 g2)
    rw [if_pos ⟨trivial, hne⟩, if_pos ⟨trivial, hne'⟩] at g5
    exact List.append_cancel_left g5

/-! ## Lines -/

theorem right_eq (w : Nat) (s : List UInt8) : right w s = s.leftpad w 32 := rfl

theorem cell_ok (c : Texts) (x : Cell) : CellShown c.value x (cellText c x) := by
  cases x with
  | int v =>
    show CellShown c.value (.int v) (right 10 (num v) ++ lit "  ")
    rw [num_dec]
    exact .int
  | double v => exact .double (general_shown 10 (by decide) _)
  | float v => exact .other nofun nofun (general_shown 8 (by decide) _)
  | quotient v => exact .other nofun nofun (general_shown 8 (by decide) _)

theorem cells_ok (c : Texts) : ∀ l : List Cell, Row (CellShown c.value) l (l.flatMap (cellText c))
  | [] => .nil
  | x :: l => by
    rw [List.flatMap_cons]
    exact .cons (cell_ok c x) (cells_ok c l)

/-- The text of each record of the lines. -/
def rateOf (c : Texts) (m : Msr) : Rat := hertz c.rnd (c.rate m.samprate)

theorem line_ok {c : Texts} {details : Int} {l : Line} (h : ∀ p m, l = .record p m → Fields (rateOf c m) m) :
    ∃ t, lineText c details l = .ok t ∧ LineShown c.value details (rateOf c) (fun m => ExtraHeaders.print m.extra 16) l t := by
  cases l with
  | record p m =>
    obtain ⟨t, h1, h2⟩ := printRecord_ok (h p m rfl) details
    cases p with
    | none =>
      refine ⟨t, ?_, .record h2⟩
      rw [lineText, h1]
      rfl
    | some p =>
      refine ⟨(Verif.Props.Screen.dec p).rightpad 10 32 ++ t, ?_, .offset h2⟩
      rw [lineText, h1, ← num_dec]
      rfl
  | row v => exact ⟨_, rfl, .row (cells_ok c v)⟩
  | text b => exact ⟨b, rfl, .text⟩

theorem lines_ok {c : Texts} {details : Int} : ∀ {ls : List Line}, (∀ p m, .record p m ∈ ls → Fields (rateOf c m) m) →
    ∃ t, linesText c details ls = .ok t ∧
      Row (LineShown c.value details (rateOf c) (fun m => ExtraHeaders.print m.extra 16)) ls t
  | [], _ => ⟨[], rfl, .nil⟩
  | l :: ls, h => by
    obtain ⟨t, h1, h2⟩ := line_ok (c := c) (details := details) (l := l)
      (fun p m e => h p m (by rw [← e]; exact List.mem_cons_self))
    obtain ⟨ts, h3, h4⟩ := lines_ok (c := c) (details := details) (ls := ls) (fun p m e => h p m (List.mem_cons_of_mem _ e))
    refine ⟨t ++ ts, ?_, .cons h2 h4⟩
    rw [linesText, h1]
    show (linesText c details ls).bind _ = _
    rw [h3]
    rfl

theorem totals_ok {s : State} (h1 : (s.files : Int).natAbs < 10 ^ 19) (h2 : (s.recs : Int).natAbs < 10 ^ 19) (h3 : (s.samps : Int).natAbs < 10 ^ 19) :
    totalsText s = txt "Files: " ++ Verif.Props.Screen.dec s.files ++ txt ", Records: " ++ Verif.Props.Screen.dec s.recs ++
      txt ", Samples: " ++ Verif.Props.Screen.dec s.samps ++ txt "\n" := by
  have l1 := dec_length (k := 19) (by decide) h1
  have l2 := dec_length (k := 19) (by decide) h2
  have l3 := dec_length (k := 19) (by decide) h3
  unfold totalsText
  rw [message_short, num_dec, num_dec, num_dec]
  · rfl
  · rw [num_dec, num_dec, num_dec]
    have a1 : (lit "Files: ").length = 7 := by decide
    have a2 : (lit ", Records: ").length = 11 := by decide
    have a3 : (lit ", Samples: ").length = 11 := by decide
    simp only [List.length_append, List.length_cons, List.length_nil, a1, a2, a3]
    omega

end Verif.Proof.Screen
