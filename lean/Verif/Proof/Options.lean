import Verif.Props.OptionsDefs
import Verif.Proof.Mem
import Verif.Proof.SelectFile
/-!
# Lemmas on the command line of msi
-/
namespace Verif.Proof.Options
open Verif.Model Verif.Model.Steim Verif.Model.Msi Verif.Model.Options
open Verif.Spec Verif.Spec.Options
open Verif.Spec.SelectFile (text fileText DigitByte)
open Verif.Props.Options
open Verif.Proof.Mem

theorem lit_eq (s : String) : ascii s = lit s := rfl

/-! ## Literals -/

theorem lits : lit "-V" = [45, 86] ∧ lit "-h" = [45, 104] ∧ lit "-v" = [45, 118] ∧
    lit "-ts" = [45, 116, 115] ∧ lit "-te" = [45, 116, 101] ∧ lit "-m" = [45, 109] ∧
    lit "-r" = [45, 114] ∧ lit "-n" = [45, 110] ∧ lit "-snd" = [45, 115, 110, 100] ∧
    lit "-p" = [45, 112] ∧ lit "-O" = [45, 79] ∧ lit "-L" = [45, 76] ∧ lit "-s" = [45, 115] ∧
    lit "-d" = [45, 100] ∧ lit "-D" = [45, 68] ∧ lit "-z" = [45, 122] ∧ lit "-t" = [45, 116] ∧
    lit "-T" = [45, 84] ∧ lit "-tg" = [45, 116, 103] ∧ lit "-tt" = [45, 116, 116] ∧
    lit "-rt" = [45, 114, 116] ∧ lit "-g" = [45, 103] ∧ lit "-G" = [45, 71] ∧ lit "-S" = [45, 83] ∧
    lit "-gmin" = [45, 103, 109, 105, 110] ∧ lit "-gmax" = [45, 103, 109, 97, 120] ∧
    lit "-Q" = [45, 81] ∧ lit "-P" = [45, 80] ∧ lit "-tf" = [45, 116, 102] ∧ lit "-b" = [45, 98] ∧
    lit "-o" = [45, 111] ∧ lit "-" = [45] ∧ lit "*" = [42] := by
  decide +kernel

/-! ## One item -/

/-- What an item does to the options. -/
def eff (h : Host) (o : Options) : Item → Options
  | .flag .skipOther => { o with skipnotdata := true }
  | .flag .offsets => { o with printoffset := true }
  | .flag .latency => { o with printlatency := true }
  | .flag .summary => { o with basicsum := true }
  | .flag .firstSamples => { o with printdata := 1 }
  | .flag .allSamples => { o with printdata := 2 }
  | .flag .raw => { o with printraw := true }
  | .flag .traces => { o with tracegapsum := 1 }
  | .flag .onlyTraces => { o with tracegaponly := 1 }
  | .flag .estimates => { o with
      tracegaps := true
      tracegaponly := if o.tracegapsum = 0 then 1 else o.tracegaponly }
  | .flag .gaps => { o with tracegapsum := 2 }
  | .flag .onlyGaps => { o with tracegaponly := 2 }
  | .flag .sync => { o with tracegaponly := 3 }
  | .flag .versions => { o with splitversion := true }
  | .flag .qualities => { o with splitversion := true }
  | .verbose n _ => { o with verbose := addInt8 o.verbose (n + 1) }
  | .details n _ => { o with ppackets := addInt8 o.ppackets (n + 1) }
  | .value .after v => { o with starttime := instantOf h.rnd v }
  | .value .before v => { o with endtime := instantOf h.rnd v }
  | .value .containing v => { o with matchPattern := some v }
  | .value .without v => { o with rejectPattern := some v }
  | .value .count v => { o with count := intOf v }
  | .value .timeTolerance v => { o with timetol := some v }
  | .value .rateTolerance v => { o with sampratetol := some v }
  | .value .minGap v => { o with mingap := some v }
  | .value .maxGap v => { o with maxgap := some v }
  | .value .timeFormat v => { o with timeformatOption := intOf v }
  | .value .samplesTo v => { o with binfile := some v }
  | .value .recordsTo v => { o with outfile := some v }
  | .file name => { o with files := o.files ++ [name] }
  | .list name => { o with files := o.files ++ (addlistfile h.files name).getD [] }

/-- The item can be processed. -/
def Fine (h : Host) : Item → Prop
  | .value k v => (k = .after ∨ k = .before →
      ∃ t, TimeStr.timestr2nstime h.rnd (text v) = .ok t ∧ t ≠ NSTERROR)
  | .list name => h.files name ≠ none
  | _ => True

/-- The values of `-gmin` and `-gmax` are ASCII. -/
def Plain : Item → Prop
  | .value k v => k = .minGap ∨ k = .maxGap → ∀ b ∈ v, b.toNat < 128
  | _ => True

theorem isInteger_minus (signed : Bool) {d : List UInt8} (hd : ∀ b ∈ d, DigitByte b) :
    SelectFile.isInteger signed d = .ok true := by
  induction d with
  | nil => rfl
  | cons a d ih =>
    have ha := hd a (by simp)
    unfold DigitByte at ha
    unfold SelectFile.isInteger SelectFile.isDigit
    rw [if_neg (by omega), bind_ok]
    simp only [ha.1, ha.2, decide_true, and_self, if_true]
    exact ih fun b hb => hd b (by simp [hb])

theorem isInteger_total (signed : Bool) {d : List UInt8} (hd : ∀ b ∈ d, b.toNat < 128) :
    ∃ r, SelectFile.isInteger signed d = .ok r := by
  induction d with
  | nil => exact ⟨_, rfl⟩
  | cons a d ih =>
    have ha := hd a (by simp)
    unfold SelectFile.isInteger SelectFile.isDigit
    rw [if_neg (by omega), bind_ok]
    split
    · exact ih fun b hb => hd b (by simp [hb])
    · exact ⟨_, rfl⟩

theorem lisnumber_total (signed : Bool) {v : List UInt8} (hv : ∀ b ∈ v, b.toNat < 128) :
    ∃ r, lisnumber signed v = .ok r := by
  unfold lisnumber
  split
  · exact isInteger_total signed fun b hb => hv b (by simp [hb])
  · exact isInteger_total signed hv

theorem getoptval_ok (signed : Bool) (k : Key) (v : List UInt8) (rest : List (List UInt8))
    (hv : ValueText k v) (hp : k = .minGap ∨ k = .maxGap → ∀ b ∈ v, b.toNat < 128) :
    getoptval signed k.name (v :: rest) = .ok (some v) := by
  unfold getoptval
  obtain ⟨-, -, -, l1, l2, l3, l4, l5, -, -, -, -, -, -, -, -, -, -, -, l6, l7, -, -, -, l8, l9, -, -,
    l10, l11, l12, l13, -⟩ := lits
  by_cases h1 : k.name = lit "-o" ∧ (v :: rest).head? = some (lit "-")
  · rw [if_pos h1]; rfl
  · rw [if_neg h1]
    by_cases h2 : k.name = lit "-gmin" ∨ k.name = lit "-gmax"
    · rw [if_pos h2]
      have hk : k = .minGap ∨ k = .maxGap := by
        rw [l8, l9] at h2
        cases k <;> simp [Key.name, lit_eq, *] at h2 ⊢
      simp only
      obtain ⟨r, hr⟩ := lisnumber_total signed (hp hk)
      rw [hr, bind_ok]
      rcases hv with hv | ⟨hv, -⟩ | ⟨-, d, rfl, hd⟩
      · unfold notOption
        simp only [if_neg hv]
        cases r <;> rfl
      · subst hv
        simp at hk
      · have : lisnumber signed (45 :: d) = .ok true := isInteger_minus signed hd
        rw [hr] at this
        injection this with this
        subst this
        rfl
    · rw [if_neg h2]
      have hk : k ≠ .minGap ∧ k ≠ .maxGap := by
        constructor
        · rintro rfl; exact h2 (.inl rfl)
        · rintro rfl; exact h2 (.inr rfl)
      rcases hv with hv | ⟨rfl, rfl⟩ | ⟨hv, -⟩
      · unfold notOption
        simp only [if_neg hv]
      · exact absurd ⟨rfl, by rw [l13]; rfl⟩ h1
      · rcases hv with rfl | rfl
        · exact absurd rfl hk.1
        · exact absurd rfl hk.2

theorem fieldTime_of {rnd : Rat → Rat} {v : List UInt8} {t : Int}
    (h : TimeStr.timestr2nstime rnd (text v) = .ok t) : SelectFile.fieldTime rnd v = .ok t := by
  unfold SelectFile.fieldTime
  unfold text at h
  rw [h]

theorem timed_ok {h : Host} {v : List UInt8} (f : Int → Options)
    (ht : ∃ t, TimeStr.timestr2nstime h.rnd (text v) = .ok t ∧ t ≠ NSTERROR) :
    timed h v f = .ok (.skip (f (instantOf h.rnd v))) := by
  obtain ⟨t, ht, hn⟩ := ht
  unfold timed instantOf
  rw [fieldTime_of ht, bind_ok, if_neg hn, ht]

theorem span_replicate (c a : UInt8) (n : Nat) (more : List UInt8) (hm : more.head? ≠ some c) :
    span c (a :: c :: (List.replicate n c ++ more)) = n + 1 := by
  unfold span
  rw [List.tail_cons, List.takeWhile_cons_of_pos (by simp), List.length_cons]
  congr 1
  induction n with
  | zero =>
    cases more with
    | nil => rfl
    | cons b more =>
      rw [List.replicate_zero, List.nil_append, List.takeWhile_cons_of_neg]
      · rfl
      · simp at hm ⊢; exact hm
  | succ n ih =>
    rw [List.replicate_succ, List.cons_append, List.takeWhile_cons_of_pos (by simp), List.length_cons, ih]

theorem param_value (h : Host) (o : Options) (k : Key) (v : List UInt8) (rest : List (List UInt8))
    (hv : ValueText k v) (hp : Plain (.value k v)) (hf : Fine h (.value k v)) :
    param h o k.name (v :: rest) = .ok (.skip (eff h o (.value k v))) := by
  have hg := getoptval_ok h.signed k v rest hv hp
  have hval : ∀ f, valued h k.name (v :: rest) f = f v := by
    intro f; unfold valued; rw [hg, bind_ok]
  have htim : k = .after ∨ k = .before → ∀ f, timed h v f = .ok (.skip (f (instantOf h.rnd v))) :=
    fun hk f => timed_ok f (hf hk)
  obtain ⟨a1, a2, a3, a4, a5, a6, a7, a8, a9, b1, b2, b3, b4, b5, b6, b7, b8, b9, c1, c2, c3, c4, c5, c6,
    c7, c8, c9, d1, d2, d3, d4, d5, d6⟩ := lits
  unfold param
  cases k <;> simp only [Key.name, lit_eq] at hval ⊢ <;>
    simp only [a1, a2, a3, a4, a5, a6, a7, a8, a9, b1, b2, b3, b4, b5, b6, b7, b8, b9, c1, c2, c3, c4, c5,
      c6, c7, c8, c9, d1, d2, d3, d4, d5, d6] at hval ⊢ <;>
    simp [hval, eff, htim]

theorem param_flag (h : Host) (o : Options) (f : Flag) (rest : List (List UInt8)) :
    param h o f.name rest = .ok (.next (eff h o (.flag f))) := by
  obtain ⟨a1, a2, a3, a4, a5, a6, a7, a8, a9, b1, b2, b3, b4, b5, b6, b7, b8, b9, c1, c2, c3, c4, c5, c6,
    c7, c8, c9, d1, d2, d3, d4, d5, d6⟩ := lits
  unfold param
  cases f <;> simp only [Flag.name, lit_eq] <;>
    simp only [a1, a2, a3, a4, a5, a6, a7, a8, a9, b1, b2, b3, b4, b5, b6, b7, b8, b9, c1, c2, c3, c4, c5,
      c6, c7, c8, c9, d1, d2, d3, d4, d5, d6] <;>
    simp [eff]

theorem param_verbose (h : Host) (o : Options) (n : Nat) (more : List UInt8)
    (hm : more.head? ≠ some 118) (rest : List (List UInt8)) :
    param h o (45 :: 118 :: (List.replicate n 118 ++ more)) rest =
      .ok (.next (eff h o (.verbose n more))) := by
  obtain ⟨a1, a2, a3, -⟩ := lits
  unfold param
  rw [a1, a2, a3, span_replicate 118 45 n more hm]
  simp [eff]

theorem param_details (h : Host) (o : Options) (n : Nat) (more : List UInt8)
    (hm : more.head? ≠ some 112) (rest : List (List UInt8)) :
    param h o (45 :: 112 :: (List.replicate n 112 ++ more)) rest =
      .ok (.next (eff h o (.details n more))) := by
  obtain ⟨a1, a2, a3, a4, a5, a6, a7, a8, a9, b1, -⟩ := lits
  unfold param
  rw [a1, a2, a3, a4, a5, a6, a7, a8, a9, b1, span_replicate 112 45 n more hm]
  simp [eff]

/-- An argument that does not begin with a minus sign, or is just that, is an input. -/
theorem param_input (h : Host) (o : Options) (arg : List UInt8) (rest : List (List UInt8))
    (ha : arg.head? ≠ some 45 ∨ arg = [45]) : param h o arg rest = .ok (input h o arg) := by
  obtain ⟨a1, a2, a3, a4, a5, a6, a7, a8, a9, b1, b2, b3, b4, b5, b6, b7, b8, b9, c1, c2, c3, c4, c5, c6,
    c7, c8, c9, d1, d2, d3, d4, d5, d6⟩ := lits
  unfold param
  simp only [a1, a2, a3, a4, a5, a6, a7, a8, a9, b1, b2, b3, b4, b5, b6, b7, b8, b9, c1, c2, c3, c4, c5,
      c6, c7, c8, c9, d1, d2, d3, d4, d5, d6]
  rcases ha with ha | rfl
  · cases arg with
    | nil => simp
    | cons a s =>
      have : a ≠ 45 := fun e => ha (by rw [e]; rfl)
      simp [this]
  · simp

theorem params_item (h : Host) (o : Options) (i : Item) (rest : List (List UInt8)) (hw : i.Written)
    (hp : Plain i) (hf : Fine h i) :
    params h false (i.args ++ rest) o = params h false rest (eff h o i) := by
  have hnext : ∀ arg o', param h o arg rest = .ok (.next o') →
      params h false (arg :: rest) o = params h false rest o' := by
    intro arg o' hh
    show (param h o arg rest).bind _ = _
    rw [hh, bind_ok]
  cases i with
  | flag f => exact hnext _ _ (param_flag h o f rest)
  | verbose n more => exact hnext _ _ (param_verbose h o n more hw rest)
  | details n more => exact hnext _ _ (param_details h o n more hw rest)
  | value k v =>
    show (param h o k.name (v :: rest)).bind _ = _
    rw [param_value h o k v rest hw hp hf, bind_ok]
    rfl
  | file name =>
    refine hnext _ _ ?_
    rw [param_input h o name rest hw.1]
    unfold input
    split
    · exact absurd rfl hw.2
    · rfl
  | list name =>
    refine hnext _ _ ?_
    rw [param_input h o _ rest (.inl (by simp))]
    have hf' : h.files name ≠ none := hf
    cases hn : h.files name with
    | none => exact absurd hn hf'
    | some s => simp [input, addlistfile, eff, hn]

/-- All the items. -/
theorem params_line (h : Host) : ∀ (items : List Item) (rest : List (List UInt8)) (o : Options),
    (∀ i ∈ items, i.Written) → (∀ i ∈ items, Plain i) → (∀ i ∈ items, Fine h i) →
    params h false (line items ++ rest) o = params h false rest (items.foldl (eff h) o) := by
  intro items
  induction items with
  | nil => intros; rfl
  | cons i items ih =>
    intro rest o hw hp hf
    show params h false (i.args ++ line items ++ rest) o = _
    rw [List.append_assoc, params_item h o i _ (hw i (by simp)) (hp i (by simp)) (hf i (by simp))]
    exact ih rest _ (fun j hj => hw j (by simp [hj])) (fun j hj => hp j (by simp [hj]))
      (fun j hj => hf j (by simp [hj]))

/-! ## The fields after all items -/

theorem last_cons {α : Type} (f : Item → Option α) (i : Item) (items : List Item) (d : α) :
    ((lastOf f (i :: items)).getD d) = (lastOf f items).getD ((f i).getD d) := by
  unfold lastOf
  cases hf : f i with
  | none => rw [List.filterMap_cons_none hf]; rfl
  | some a =>
    rw [List.filterMap_cons_some hf]
    cases hl : items.filterMap f with
    | nil => rfl
    | cons b l =>
      have : l.getLast?.or (some b) ≠ none := by cases l.getLast? <;> simp
      simp only [List.getLast?_cons, Option.getD_some]

theorem last_none {α : Type} (items : List Item) : lastOf (fun _ => (none : Option α)) items = none := by
  unfold lastOf
  rw [List.filterMap_eq_nil_iff.2 (fun _ _ => rfl)]
  rfl

/-- A field that is set by some items. -/
theorem fold_last {α : Type} (h : Host) (p : Options → α) (f : Item → Option α)
    (hpf : ∀ o i, p (eff h o i) = (f i).getD (p o)) :
    ∀ (items : List Item) (o : Options), p (items.foldl (eff h) o) = (lastOf f items).getD (p o) := by
  intro items
  induction items with
  | nil => intro o; rfl
  | cons i items ih =>
    intro o
    rw [List.foldl_cons, ih, hpf, last_cons]

/-- A field that is only set to true. -/
theorem fold_any (h : Host) (p : Options → Bool) (q : Item → Bool)
    (hpf : ∀ o i, p (eff h o i) = (p o || q i)) :
    ∀ (items : List Item) (o : Options), p (items.foldl (eff h) o) = (p o || items.any q) := by
  intro items
  induction items with
  | nil => intro o; simp
  | cons i items ih =>
    intro o
    rw [List.foldl_cons, ih, hpf, List.any_cons, Bool.or_assoc]

/-- A field that counts modulo 256. -/
theorem fold_count (h : Host) (p : Options → Int) (f : Item → Option Nat)
    (hpf : ∀ o i, p (eff h o i) = match f i with | none => p o | some n => addInt8 (p o) n) :
    ∀ (items : List Item) (o : Options) (z : Int), p o = z.bmod 256 →
      p (items.foldl (eff h) o) = (z + ((items.filterMap f).sum : Nat)).bmod 256 := by
  intro items
  induction items with
  | nil => intro o z hz; simp [hz]
  | cons i items ih =>
    intro o z hz
    rw [List.foldl_cons]
    cases hf : f i with
    | none =>
      rw [List.filterMap_cons_none hf]
      refine ih _ _ ?_
      rw [hpf, hf]
      exact hz
    | some n =>
      rw [List.filterMap_cons_some hf, List.sum_cons, ih _ (z + n)]
      · congr 1
        omega
      · rw [hpf, hf]
        simp only
        unfold addInt8
        rw [hz, Int.bmod_add_bmod]

theorem fold_files (h : Host) : ∀ (items : List Item) (o : Options),
    (items.foldl (eff h) o).files = o.files ++ items.flatMap fun
      | .file name => [name]
      | .list name => (addlistfile h.files name).getD []
      | _ => [] := by
  intro items
  induction items with
  | nil => intro o; simp
  | cons i items ih =>
    intro o
    rw [List.foldl_cons, ih, List.flatMap_cons, ← List.append_assoc]
    congr 1
    rcases i with f | _ | _ | ⟨k, v⟩ | _ | _
    · cases f <;> simp [eff]
    · simp [eff]
    · simp [eff]
    · cases k <;> simp [eff]
    · simp [eff]
    · simp [eff]

/-- The list instead of the records. -/
theorem fold_instead (h : Host) : ∀ (items : List Item) (o : Options),
    (items.foldl (eff h) o).tracegaponly =
      if o.tracegapsum = 0 then
        (((items.takeWhile fun i => (afterwards i).isNone).filterMap (instead true) ++
          (items.dropWhile fun i => (afterwards i).isNone).filterMap (instead false)).getLast?).getD
            o.tracegaponly
      else ((items.filterMap (instead false)).getLast?).getD o.tracegaponly := by
  have key : ∀ (items : List Item) (o : Options), o.tracegapsum ≠ 0 →
      (items.foldl (eff h) o).tracegaponly = ((items.filterMap (instead false)).getLast?).getD
        o.tracegaponly := by
    intro items
    induction items with
    | nil => intro o _; rfl
    | cons i items ih =>
      intro o ho
      rw [List.foldl_cons, ih]
      · have := last_cons (instead false) i items o.tracegaponly
        unfold lastOf at this
        rw [this]
        congr 1
        rcases i with f | _ | _ | ⟨k, v⟩ | _ | _
        · cases f <;> simp [eff, instead, ho]
        · rfl
        · rfl
        · cases k <;> rfl
        · rfl
        · rfl
      · rcases i with f | _ | _ | ⟨k, v⟩ | _ | _
        · cases f <;> simp [eff, ho]
        · exact ho
        · exact ho
        · cases k <;> exact ho
        · exact ho
        · exact ho
  intro items o
  by_cases ho : o.tracegapsum = 0
  · rw [if_pos ho]
    induction items generalizing o with
    | nil => rfl
    | cons i items ih =>
      rw [List.foldl_cons]
      by_cases ha : (afterwards i).isNone = true
      · have hs : (eff h o i).tracegapsum = 0 := by
          rcases i with f | _ | _ | ⟨k, v⟩ | _ | _
          · cases f <;> simp [afterwards] at ha <;> exact ho
          · exact ho
          · exact ho
          · cases k <;> exact ho
          · exact ho
          · exact ho
        rw [ih _ hs,
          List.takeWhile_cons_of_pos (p := fun i => (afterwards i).isNone) ha,
          List.dropWhile_cons_of_pos (p := fun i => (afterwards i).isNone) ha]
        have hc : (eff h o i).tracegaponly = (instead true i).getD o.tracegaponly := by
          rcases i with f | _ | _ | ⟨k, v⟩ | _ | _
          · cases f <;> simp [eff, instead, ho]
          · rfl
          · rfl
          · cases k <;> rfl
          · rfl
          · rfl
        rw [hc]
        cases hf : instead true i with
        | none => rw [List.filterMap_cons_none hf]; rfl
        | some a =>
          rw [List.filterMap_cons_some hf, List.cons_append, List.getLast?_cons]
          rfl
      · rw [List.takeWhile_cons_of_neg (p := fun i => (afterwards i).isNone) ha,
          List.dropWhile_cons_of_neg (p := fun i => (afterwards i).isNone) ha,
          List.filterMap_nil, List.nil_append]
        rw [key]
        · rcases i with f | _ | _ | ⟨k, v⟩ | _ | _
          · cases f <;> simp [afterwards] at ha <;> rfl
          · simp [afterwards] at ha
          · simp [afterwards] at ha
          · simp [afterwards] at ha
          · simp [afterwards] at ha
          · simp [afterwards] at ha
        · rcases i with f | _ | _ | ⟨k, v⟩ | _ | _
          · cases f <;> simp [afterwards] at ha <;> simp [eff]
          · simp [afterwards] at ha
          · simp [afterwards] at ha
          · simp [afterwards] at ha
          · simp [afterwards] at ha
          · simp [afterwards] at ha
  · rw [if_neg ho]
    exact key items o ho

/-! ## List files -/

theorem fgets_split : ∀ (n : Nat) (s : List UInt8), (SelectFile.fgets n s).1 ++ (SelectFile.fgets n s).2 = s
    := by
  intro n
  induction n with
  | zero => intro s; rfl
  | succ n ih =>
    intro s
    cases s with
    | nil => rfl
    | cons c s =>
      unfold SelectFile.fgets
      split
      · rfl
      · simp only [List.cons_append, ih]

/-- A line of exactly `n` bytes is read without its newline. -/
theorem fgets_full (s rest : List UInt8) (hs : ∀ c ∈ s, c ≠ 10) :
    SelectFile.fgets s.length (s ++ rest) = (s, rest) := by
  induction s with
  | nil => rfl
  | cons c s ih =>
    simp only [List.cons_append, List.length_cons, SelectFile.fgets, if_neg (hs c (by simp)),
      ih fun d hd => hs d (by simp [hd])]

theorem listEntry_of {s : List UInt8} (hs : ∀ b ∈ s, b ≠ 0 ∧ b ≠ 10) (t : List UInt8)
    (ht : t = [] ∨ t = [10]) : (listEntry (s ++ t)).toList = names [s] := by
  have h1 : (s ++ t).takeWhile (fun c => c != 0 && c != 10) = s := by
    rw [List.takeWhile_append_of_pos (by intro a ha; simp [hs a ha])]
    rcases ht with rfl | rfl <;> simp
  unfold listEntry names
  rw [h1]
  cases s with
  | nil => rfl
  | cons a s =>
    by_cases ha : a = 35
    · simp [ha]
    · simp [ha]

theorem listLoop_file (l : Bool) : ∀ (lines : List (List UInt8)) (fuel : Nat),
    (∀ s ∈ lines, ListLine s) → (fileText lines l).length < fuel →
    listLoop fuel (fileText lines l) = names lines := by
  intro lines
  induction lines with
  | nil =>
    intro fuel _ hf
    obtain ⟨m, rfl⟩ : ∃ m, fuel = m + 1 := ⟨fuel - 1, by omega⟩
    rfl
  | cons s lines ih =>
    intro fuel hl hf
    obtain ⟨m, rfl⟩ : ∃ m, fuel = m + 1 := ⟨fuel - 1, by omega⟩
    have h1 := hl s (by simp)
    have h10 : ∀ c ∈ s, c ≠ 10 := fun c hc => (h1.bytes c hc).2
    have hnames : names (s :: lines) = names [s] ++ names lines := by
      unfold names
      rw [← List.filter_append]
      rfl
    -- a line with its newline
    have main : ∀ (rest : List UInt8) (m : Nat), s.length + rest.length < m →
        (∀ k, rest.length < k → listLoop k rest = names lines) →
        listLoop (m + 1) (s ++ 10 :: rest) = names (s :: lines) := by
      intro rest m hm hrest
      unfold listLoop
      by_cases hlen : s.length < 1023
      · rw [Proof.SelectFile.fgets_line s rest h10 1023 hlen]
        simp only
        rw [if_neg (by simp), listEntry_of h1.bytes [10] (.inr rfl), hrest _ (by omega), hnames]
      · have he : s.length = 1023 := by have := h1.short; omega
        have := fgets_full s (10 :: rest) h10
        rw [he] at this
        rw [this]
        simp only
        rw [if_neg (by intro e; rw [e] at he; simp at he)]
        have e1 := listEntry_of h1.bytes [] (.inl rfl)
        rw [List.append_nil] at e1
        rw [e1, hnames]
        obtain ⟨m', rfl⟩ : ∃ m', m = m' + 1 := ⟨m - 1, by omega⟩
        congr 1
        unfold listLoop
        have e2 : SelectFile.fgets 1023 (10 :: rest) = ([10], rest) := rfl
        rw [e2]
        simp only
        rw [if_neg (by simp), hrest _ (by omega)]
        rfl
    cases lines with
    | nil =>
      cases l with
      | true =>
        have e : fileText [s] true = s ++ 10 :: [] := rfl
        rw [e] at hf ⊢
        simp only [List.length_append, List.length_cons, List.length_nil] at hf
        refine main [] m (by simp; omega) ?_
        intro k hk
        obtain ⟨k', rfl⟩ : ∃ k', k = k' + 1 := ⟨k - 1, by omega⟩
        rfl
      | false =>
        have e : fileText [s] false = s := rfl
        rw [e] at hf ⊢
        unfold listLoop
        rw [Proof.SelectFile.fgets_last s h10 1023 h1.short]
        simp only
        have e1 := listEntry_of h1.bytes [] (.inl rfl)
        rw [List.append_nil] at e1
        cases s with
        | nil => rfl
        | cons a s =>
          rw [if_neg (by simp), e1]
          simp only [List.length_cons] at hf
          obtain ⟨m', rfl⟩ : ∃ m', m = m' + 1 := ⟨m - 1, by omega⟩
          have : listLoop (m' + 1) [] = [] := rfl
          rw [this, List.append_nil]
    | cons s2 lines =>
      have e : fileText (s :: s2 :: lines) l = s ++ 10 :: fileText (s2 :: lines) l := rfl
      rw [e] at hf ⊢
      simp only [List.length_append, List.length_cons] at hf
      refine main _ m (by omega) ?_
      intro k hk
      exact ih k (fun t ht => hl t (List.mem_cons_of_mem _ ht)) hk

/-! ## Numbers -/

theorem digitByte_of {b : UInt8} (h : DigitByte b) : digitByte b = true := by
  unfold DigitByte at h
  unfold digitByte
  simp [h.1, h.2]

theorem strtol_numeral {v : List UInt8} {n : Nat} (h : TimeStr.Numeral (text v) n) :
    strtol v = (min n (2 ^ 63 - 1) : Nat) := by
  have hd := Proof.SelectFile.numeral_digits h
  have hval : digits v = n := by
    unfold digits
    have ht := List.takeWhile_append_of_pos (l₂ := []) fun b hb => digitByte_of (hd b hb)
    rw [List.append_nil, List.takeWhile_nil, List.append_nil] at ht
    rw [ht]
    obtain ⟨-, -, hv⟩ := h
    rw [← hv]
    unfold TimeStr.value text
    rw [List.foldl_map]
    congr 1
    funext a b
    rw [Proof.SelectFile.text_byte]
  cases v with
  | nil => exact absurd rfl h.1
  | cons a v =>
    have ha := hd a (by simp)
    unfold DigitByte at ha
    unfold strtol
    rw [List.dropWhile_cons_of_neg (by unfold spaceByte; simp; omega)]
    split
    · rename_i e; injection e with e _; rw [e] at ha; simp at ha
    · rename_i e; injection e with e _; rw [e] at ha; simp at ha
    · rw [hval]

theorem intOf_numeral {v : List UInt8} {n : Nat} (h : TimeStr.Numeral (text v) n) (hn : n < 2 ^ 31) :
    intOf v = n := by
  unfold intOf
  rw [strtol_numeral h, Int.bmod_def]
  split <;> omega

/-! ## The whole command line -/

theorem last_eq (k : Key) (items : List Item) :
    last k items = lastOf (fun | .value k' v => if k' = k then some v else none | _ => none) items := rfl

/-- A field with the value of an option. -/
theorem fold_value (h : Host) (k : Key) (p : Options → Option (List UInt8))
    (hpf : ∀ o i, p (eff h o i) = match i with
      | .value k' v => if k' = k then some v else p o
      | _ => p o) (items : List Item) (o : Options) (ho : p o = none) :
    p (items.foldl (eff h) o) = last k items := by
  have := fold_last h p (fun i => match i with
    | .value k' v => if k' = k then some (some v) else none
    | _ => none) (by
      intro o i
      rw [hpf]
      cases i with
      | value k' v => simp only; split <;> rfl
      | _ => rfl) items o
  rw [this, ho, last_eq]
  unfold lastOf
  have e : (items.filterMap fun i => match i with
      | .value k' v => if k' = k then some (some v) else none
      | _ => none) = (items.filterMap fun i => match i with
      | .value k' v => if k' = k then some v else none
      | _ => none).map some := by
    rw [List.map_filterMap]
    congr 1
    funext i
    cases i with
    | value k' v => simp only; split <;> rfl
    | _ => rfl
  rw [e, List.getLast?_map]
  cases (items.filterMap fun i => match i with
      | .value k' v => if k' = k then some v else none
      | _ => none).getLast? <;> rfl

/-- A field with something made of the value of an option. -/
theorem fold_value_map {α : Type} (h : Host) (k : Key) (p : Options → α) (g : List UInt8 → α)
    (hpf : ∀ o i, p (eff h o i) = match i with
      | .value k' v => if k' = k then g v else p o
      | _ => p o) (items : List Item) (o : Options) :
    p (items.foldl (eff h) o) = match last k items with | none => p o | some v => g v := by
  have := fold_last h p (fun i => match i with
    | .value k' v => if k' = k then some (g v) else none
    | _ => none) (by
      intro o i
      rw [hpf]
      cases i with
      | value k' v => simp only; split <;> rfl
      | _ => rfl) items o
  rw [this, last_eq]
  unfold lastOf
  have e : (items.filterMap fun i => match i with
      | .value k' v => if k' = k then some (g v) else none
      | _ => none) = (items.filterMap fun i => match i with
      | .value k' v => if k' = k then some v else none
      | _ => none).map g := by
    rw [List.map_filterMap]
    congr 1
    funext i
    cases i with
    | value k' v => simp only; split <;> rfl
    | _ => rfl
  rw [e, List.getLast?_map]
  cases (items.filterMap fun i => match i with
      | .value k' v => if k' = k then some v else none
      | _ => none).getLast? <;> rfl

/-- A field of a flag. -/
theorem fold_flag (h : Host) (f : Flag) (p : Options → Bool)
    (hpf : ∀ o i, p (eff h o i) = (p o || decide (i = .flag f))) (items : List Item) (o : Options)
    (ho : p o = false) : p (items.foldl (eff h) o) = decide (.flag f ∈ items) := by
  rw [fold_any h p (fun i => decide (i = .flag f)) hpf items o, ho, Bool.false_or, Bool.eq_iff_iff]
  simp

/-- The cases of an item, by computation. -/
macro "by_item " : tactic => `(tactic| (
  intro o i
  rcases i with f | _ | _ | ⟨k, v⟩ | _ | _
  · cases f <;> simp [eff, verboseLetters, detailLetters, samplesOf, valueOf]
  · simp [eff, verboseLetters, detailLetters, samplesOf, valueOf]
  · simp [eff, verboseLetters, detailLetters, samplesOf, valueOf]
  · cases k <;> simp [eff, verboseLetters, detailLetters, samplesOf, valueOf]
  · simp [eff, verboseLetters, detailLetters, samplesOf, valueOf]
  · simp [eff, verboseLetters, detailLetters, samplesOf, valueOf]))

/-- The options before `finish`. -/
theorem fold_all (h : Host) (lines : List UInt8 → List (List UInt8)) (items : List Item) :
    items.foldl (eff h) {} = { meaning h.rnd lines items with
      matching := none
      reject := none
      timeformat := .isoMonthDayZ
      matchPattern := last .containing items
      rejectPattern := last .without items
      timeformatOption := match last .timeFormat items with | none => -1 | some v => intOf v
      count := match last .count items with | none => -1 | some v => intOf v
      files := items.flatMap fun
        | .file name => [name]
        | .list name => (addlistfile h.files name).getD []
        | _ => [] } := by
  have hx : ∀ o o' : Options, o.verbose = o'.verbose → o.ppackets = o'.ppackets →
      o.printdata = o'.printdata → o.printraw = o'.printraw → o.printoffset = o'.printoffset →
      o.printlatency = o'.printlatency → o.basicsum = o'.basicsum → o.tracegapsum = o'.tracegapsum →
      o.tracegaponly = o'.tracegaponly → o.tracegaps = o'.tracegaps → o.timeformat = o'.timeformat →
      o.splitversion = o'.splitversion → o.skipnotdata = o'.skipnotdata → o.mingap = o'.mingap →
      o.maxgap = o'.maxgap → o.timetol = o'.timetol → o.sampratetol = o'.sampratetol →
      o.count = o'.count → o.binfile = o'.binfile → o.outfile = o'.outfile →
      o.starttime = o'.starttime → o.endtime = o'.endtime → o.matching = o'.matching →
      o.reject = o'.reject → o.files = o'.files → o.matchPattern = o'.matchPattern →
      o.rejectPattern = o'.rejectPattern → o.timeformatOption = o'.timeformatOption → o = o' := by
    intro o o'
    cases o
    cases o'
    intros
    simp_all
  apply hx
  · have := fold_count h (·.verbose) verboseLetters
      (by by_item)      items {} 0 rfl
    rw [this, Int.zero_add]
    unfold meaning letters
    simp only
  · have := fold_count h (·.ppackets) detailLetters
      (by by_item)      items {} 0 rfl
    rw [this, Int.zero_add]
    unfold meaning letters
    simp only
  · exact fold_last h (·.printdata) _ (by by_item) items {}
  · exact fold_flag h .raw (·.printraw) (by by_item) items {} rfl
  · exact fold_flag h .offsets (·.printoffset) (by by_item) items {} rfl
  · exact fold_flag h .latency (·.printlatency) (by by_item) items {} rfl
  · exact fold_flag h .summary (·.basicsum) (by by_item) items {} rfl
  · refine fold_last h (·.tracegapsum) afterwards ?_ items {}
    intro o i
    rcases i with f | _ | _ | ⟨k, v⟩ | _ | _
    · cases f <;> simp [eff, afterwards]
    · simp [eff, afterwards]
    · simp [eff, afterwards]
    · cases k <;> simp [eff, afterwards]
    · simp [eff, afterwards]
    · simp [eff, afterwards]
  · rw [fold_instead, if_pos rfl]
    rfl
  · exact fold_flag h .estimates (·.tracegaps) (by by_item) items {} rfl
  · exact fold_last h (·.timeformat) (fun _ => none) (by by_item) items {} |>.trans (by rw [last_none]; rfl)
  · rw [fold_any h (·.splitversion) (fun i => decide (i = .flag .versions ∨ i = .flag .qualities))
      (by by_item) items {}, Bool.false_or]
    show _ = decide _
    rw [Bool.eq_iff_iff]
    simp only [List.any_eq_true, decide_eq_true_eq]
    constructor
    · rintro ⟨i, hi, rfl | rfl⟩
      · exact .inl hi
      · exact .inr hi
    · rintro (hi | hi)
      · exact ⟨_, hi, .inl rfl⟩
      · exact ⟨_, hi, .inr rfl⟩
  · exact fold_flag h .skipOther (·.skipnotdata) (by by_item) items {} rfl
  · exact fold_value h .minGap (·.mingap) (by by_item) items {} rfl
  · exact fold_value h .maxGap (·.maxgap) (by by_item) items {} rfl
  · exact fold_value h .timeTolerance (·.timetol) (by by_item) items {} rfl
  · exact fold_value h .rateTolerance (·.sampratetol) (by by_item) items {} rfl
  · exact fold_value_map h .count (·.count) intOf (by by_item) items {}
  · exact fold_value h .samplesTo (·.binfile) (by by_item) items {} rfl
  · exact fold_value h .recordsTo (·.outfile) (by by_item) items {} rfl
  · exact fold_value_map h .after (·.starttime) (instantOf h.rnd) (by by_item) items {}
  · exact fold_value_map h .before (·.endtime) (instantOf h.rnd) (by by_item) items {}
  · exact fold_last h (·.matching) (fun _ => none) (by by_item) items {} |>.trans (by rw [last_none]; rfl)
  · exact fold_last h (·.reject) (fun _ => none) (by by_item) items {} |>.trans (by rw [last_none]; rfl)
  · rw [fold_files]
    rfl
  · exact fold_value h .containing (·.matchPattern) (by by_item) items {} rfl
  · exact fold_value h .without (·.rejectPattern) (by by_item) items {} rfl
  · exact fold_value_map h .timeFormat (·.timeformatOption) intOf (by by_item) items {}

theorem wildcards_eq (v : List UInt8) : wildcards v = ascii "*" ++ v ++ ascii "*" := by
  obtain ⟨-, -, -, -, -, -, -, -, -, -, -, -, -, -, -, -, -, -, -, -, -, -, -, -, -, -, -, -, -, -, -, -, e⟩
    := lits
  rw [lit_eq, e]
  rfl

/-- What an item of a valid command line is. -/
theorem fine_of {h : Host} {lines : List UInt8 → List (List UInt8)} {items : List Item}
    (hv : Valid h lines items) : (∀ i ∈ items, Plain i) ∧ ∀ i ∈ items, Fine h i := by
  constructor
  · intro i hi
    cases i with
    | value k v => exact hv.plain k v hi
    | _ => trivial
  · intro i hi
    cases i with
    | value k v => exact hv.times k v hi
    | list name =>
      obtain ⟨⟨l, hl⟩, -⟩ := hv.lists name hi
      show h.files name ≠ none
      rw [hl]
      simp
    | _ => trivial

theorem processparam_valid {h : Host} {lines : List UInt8 → List (List UInt8)} {items : List Item}
    (hv : Valid h lines items) :
    processparam h (line items) = .ok (.run (meaning h.rnd lines items)) := by
  obtain ⟨hp, hf⟩ := fine_of hv
  have h1 := params_line h items [] {} hv.written hp hf
  rw [List.append_nil] at h1
  have h2 : ∀ o, params h false [] o = .ok (.run o) := fun _ => rfl
  unfold processparam
  rw [h1, h2, bind_ok]
  simp only
  have hfiles : (items.flatMap fun
        | .file name => [name]
        | .list name => (addlistfile h.files name).getD []
        | _ => []) = inputs lines items := by
    unfold inputs
    rw [List.flatMap_def, List.flatMap_def]
    congr 1
    apply List.map_congr_left
    intro i hi
    cases i with
    | list name =>
      obtain ⟨⟨l, hl⟩, hlines⟩ := hv.lists name hi
      simp only [addlistfile, hl, Option.map_some, Option.getD_some]
      exact listLoop_file l _ _ hlines (by omega)
    | _ => rfl
  have hcount : (match last .count items with | none => (-1 : Int) | some v => intOf v) =
      match last .count items with | none => -1 | some v => (TimeStr.value (text v) : Int) := by
    cases hl : last .count items with
    | none => rfl
    | some v =>
      obtain ⟨n, hn, hlt⟩ := hv.count v hl
      simp only
      rw [intOf_numeral hn hlt, hn.2.2]
  have hfold := fold_all h lines items
  rw [hfiles, hcount] at hfold
  rw [hfold]
  unfold finish
  have hne := hv.inputs
  have htf : ∀ o : Options, o.timeformat = .isoMonthDayZ →
      (o.timeformatOption = match last .timeFormat items with | none => -1 | some v => intOf v) →
      timeFormat o = some (formatOf (last .timeFormat items)) := by
    intro o h1 h2
    unfold timeFormat formatOf
    cases hl : last .timeFormat items with
    | none =>
      rw [hl] at h2
      rw [h2, if_neg (by decide), h1]
    | some v =>
      rw [hl] at h2
      obtain ⟨n, hn, hle⟩ := hv.format v hl
      simp only at h2 ⊢
      rw [h2, intOf_numeral hn (by omega), hn.2.2]
      rw [if_pos (by omega)]
      split
      · rw [if_pos (by omega)]
      · split
        · rw [if_neg (by omega), if_pos (by omega)]
        · rw [if_pos (by omega), if_neg (by omega), if_neg (by omega)]
  rw [htf _ rfl rfl]
  simp only
  rw [if_neg hne]
  have e : ∀ v : Option (List UInt8), v.map wildcards = v.map fun v => ascii "*" ++ v ++ ascii "*" := by
    intro v
    cases v with
    | none => rfl
    | some v => simp only [Option.map_some, wildcards_eq]
  rw [e, e]
  unfold meaning
  simp only
  rfl

/-! ## What is accepted -/

theorem isInteger_true {signed : Bool} {d : List UInt8} (h : SelectFile.isInteger signed d = .ok true) :
    ∀ b ∈ d, DigitByte b := by
  induction d with
  | nil => intro b hb; cases hb
  | cons a d ih =>
    unfold SelectFile.isInteger SelectFile.isDigit at h
    split at h
    · cases h
    · rw [bind_ok] at h
      split at h
      · rename_i ha
        intro b hb
        rcases List.mem_cons.1 hb with rfl | hb
        · exact of_decide_eq_true ha
        · exact ih h b hb
      · cases h

theorem notOption_inv {rest : List (List UInt8)} {v : List UInt8} (h : notOption rest = some v) :
    ∃ rest', rest = v :: rest' ∧ v.head? ≠ some 45 := by
  unfold notOption at h
  split at h
  · cases h
  · split at h
    · cases h
    · rename_i hne
      injection h with h
      subst h
      exact ⟨_, rfl, hne⟩

theorem getoptval_inv {signed : Bool} {k : Key} {rest : List (List UInt8)} {v : List UInt8}
    (h : getoptval signed k.name rest = .ok (some v)) : ∃ rest', rest = v :: rest' ∧ ValueText k v := by
  obtain ⟨-, -, -, l1, l2, l3, l4, l5, -, -, -, -, -, -, -, -, -, -, -, l6, l7, -, -, -, l8, l9, -, -,
    l10, l11, l12, l13, -⟩ := lits
  unfold getoptval at h
  split at h
  · rename_i hk
    have hk' : k = .recordsTo := by
      have := hk.1
      rw [l12] at this
      cases k <;> simp [Key.name, lit_eq, *] at this ⊢
    have h2 := hk.2
    have h3 := Res.ok.inj h
    rw [h3] at h2
    injection h2 with h2
    cases rest with
    | nil => cases h3
    | cons a rest =>
      injection h3 with h3
      subst h3
      exact ⟨rest, rfl, .inr (.inl ⟨hk', by rw [h2, l13]⟩)⟩
  · split at h
    · rename_i hk
      have hk' : k = .minGap ∨ k = .maxGap := by
        rw [l8, l9] at hk
        cases k <;> simp [Key.name, lit_eq, *] at hk ⊢
      split at h
      · cases h
      · rename_i a rest _
        obtain ⟨b, hb, h⟩ := bind_eq_ok.1 h
        cases b with
        | true =>
          have h3 := Res.ok.inj h
          simp only [if_true] at h3
          injection h3 with h3
          subst h3
          refine ⟨rest, rfl, ?_⟩
          unfold lisnumber at hb
          split at hb
          · exact .inr (.inr ⟨hk', _, rfl, isInteger_true hb⟩)
          · have hd := isInteger_true hb
            refine .inl ?_
            intro e
            cases a with
            | nil => cases e
            | cons c a =>
              injection e with e
              have := hd c (by simp)
              rw [e] at this
              unfold DigitByte at this
              simp at this
        | false =>
          have h3 := Res.ok.inj h
          simp only [Bool.false_eq_true, if_false] at h3
          obtain ⟨r, hr, hv⟩ := notOption_inv h3
          exact ⟨r, hr, .inl hv⟩
    · obtain ⟨r, hr, hv⟩ := notOption_inv (Res.ok.inj h)
      exact ⟨r, hr, .inl hv⟩

theorem valued_inv (h : Host) (k : Key) (rest : List (List UInt8)) (f : List UInt8 → Res Step) (s : Step)
    (hs : valued h k.name rest f = .ok s) : (∃ c, s = .exit c) ∨
      ∃ v rest', rest = v :: rest' ∧ ValueText k v ∧ f v = .ok s := by
  unfold valued at hs
  obtain ⟨v, hv, hs⟩ := bind_eq_ok.1 hs
  cases v with
  | none => exact .inl ⟨_, (Res.ok.inj hs).symm⟩
  | some v =>
    obtain ⟨r, hr, ht⟩ := getoptval_inv hv
    exact .inr ⟨v, r, hr, ht, hs⟩

theorem timed_inv {h : Host} {v : List UInt8} {f : Int → Options} {s : Step}
    (hs : timed h v f = .ok s) : (∃ c, s = .exit c) ∨
      (∃ t, TimeStr.timestr2nstime h.rnd (text v) = .ok t ∧ t ≠ NSTERROR) ∧
        s = .skip (f (instantOf h.rnd v)) := by
  unfold timed at hs
  obtain ⟨t, ht, hs⟩ := bind_eq_ok.1 hs
  have ht' : TimeStr.timestr2nstime h.rnd (text v) = .ok t := by
    unfold SelectFile.fieldTime at ht
    unfold text
    split at ht
    · rename_i e; rw [e]; rw [Res.ok.inj ht]
    · cases ht
    · cases ht
  have hs := Res.ok.inj hs
  split at hs
  · exact .inl ⟨_, hs.symm⟩
  · rename_i hn
    refine .inr ⟨⟨t, ht', hn⟩, ?_⟩
    unfold instantOf
    rw [ht', hs]

theorem letters_of (c : UInt8) {arg : List UInt8} (h : arg.take 2 = [45, c]) :
    ∃ n more, arg = 45 :: c :: (List.replicate n c ++ more) ∧ more.head? ≠ some c := by
  match arg, h with
  | a :: b :: s, h =>
    simp only [List.take_succ_cons, List.take_zero, List.cons.injEq, and_true] at h
    obtain ⟨rfl, rfl⟩ := h
    refine ⟨(s.takeWhile (· == b)).length, s.dropWhile (· == b), ?_, ?_⟩
    · congr 2
      conv => lhs; rw [← List.takeWhile_append_dropWhile (p := (· == b)) (l := s)]
      congr 1
      rw [List.eq_replicate_iff]
      refine ⟨rfl, fun x hx => ?_⟩
      have := List.all_takeWhile (p := (· == b)) (l := s)
      rw [List.all_eq_true] at this
      simpa using this x hx
    · intro e
      have := List.head?_dropWhile_not (· == b) s
      rw [e] at this
      simp at this

theorem input_inv (h : Host) (o : Options) (arg : List UInt8) {rest : List (List UInt8)} (s : Step)
    (hw : arg.head? ≠ some 45 ∨ arg = [45]) (hs : input h o arg = s) : (∃ c, s = .exit c) ∨
      (∃ i, i.args = [arg] ∧ i.Written ∧ Fine h i ∧ s = .next (eff h o i)) ∨
      ∃ k v rest', rest = v :: rest' ∧ arg = k.name ∧ ValueText k v ∧ Fine h (.value k v) ∧
        s = .skip (eff h o (.value k v)) := by
  unfold input at hs
  split at hs
  · rename_i name
    split at hs
    · exact .inl ⟨_, hs.symm⟩
    · rename_i l hl
      refine .inr (.inl ⟨.list name, rfl, trivial, ?_, ?_⟩)
      · intro e
        unfold addlistfile at hl
        rw [e] at hl
        cases hl
      · rw [← hs]
        simp [eff, hl]
  · rename_i hno
    refine .inr (.inl ⟨.file arg, rfl, ⟨hw, ?_⟩, trivial, hs.symm⟩)
    intro e
    cases arg with
    | nil => cases e
    | cons a t =>
      injection e with e
      exact hno t (by rw [e])

/-- What an argument can be. -/
theorem param_inv (h : Host) (o : Options) (arg : List UInt8) (rest : List (List UInt8)) (s : Step)
    (hs : param h o arg rest = .ok s) : (∃ c, s = .exit c) ∨
      (∃ i, i.args = [arg] ∧ i.Written ∧ Fine h i ∧ s = .next (eff h o i)) ∨
      ∃ k v rest', rest = v :: rest' ∧ arg = k.name ∧ ValueText k v ∧ Fine h (.value k v) ∧
        s = .skip (eff h o (.value k v)) := by
  unfold param at hs
  by_cases ha : arg = lit "-V"
  · rw [if_pos ha] at hs
    exact .inl ⟨_, (Res.ok.inj hs).symm⟩
  rw [if_neg ha] at hs
  by_cases ha : arg = lit "-h"
  · rw [if_pos ha] at hs
    exact .inl ⟨_, (Res.ok.inj hs).symm⟩
  rw [if_neg ha] at hs
  by_cases ha : arg.take 2 = lit "-v"
  · rw [if_pos ha] at hs
    obtain ⟨n, more, rfl, hm⟩ := letters_of 118 (by rw [ha]; decide +kernel)
    rw [span_replicate 118 45 n more hm] at hs
    exact .inr (.inl ⟨.verbose n more, rfl, hm, trivial, by rw [← Res.ok.inj hs]; rfl⟩)
  rw [if_neg ha] at hs
  by_cases ha : arg = lit "-ts"
  · rw [if_pos ha] at hs
    subst ha
    rcases valued_inv h .after rest _ s hs with hs | ⟨v, rest', rfl, hv, hs⟩
    · exact .inl hs
    · rcases timed_inv hs with hs | ⟨ht, hs⟩
      · exact .inl hs
      · exact .inr (.inr ⟨.after, v, rest', rfl, rfl, hv, fun _ => ht, hs⟩)
  rw [if_neg ha] at hs
  by_cases ha : arg = lit "-te"
  · rw [if_pos ha] at hs
    subst ha
    rcases valued_inv h .before rest _ s hs with hs | ⟨v, rest', rfl, hv, hs⟩
    · exact .inl hs
    · rcases timed_inv hs with hs | ⟨ht, hs⟩
      · exact .inl hs
      · exact .inr (.inr ⟨.before, v, rest', rfl, rfl, hv, fun _ => ht, hs⟩)
  rw [if_neg ha] at hs
  by_cases ha : arg = lit "-m"
  · rw [if_pos ha] at hs
    subst ha
    rcases valued_inv h .containing rest _ s hs with hs | ⟨v, rest', rfl, hv, hs⟩
    · exact .inl hs
    · exact .inr (.inr ⟨.containing, v, rest', rfl, rfl, hv, (by rintro (hk | hk) <;> cases hk),
        (by rw [← Res.ok.inj hs]; rfl)⟩)
  rw [if_neg ha] at hs
  by_cases ha : arg = lit "-r"
  · rw [if_pos ha] at hs
    subst ha
    rcases valued_inv h .without rest _ s hs with hs | ⟨v, rest', rfl, hv, hs⟩
    · exact .inl hs
    · exact .inr (.inr ⟨.without, v, rest', rfl, rfl, hv, (by rintro (hk | hk) <;> cases hk),
        (by rw [← Res.ok.inj hs]; rfl)⟩)
  rw [if_neg ha] at hs
  by_cases ha : arg = lit "-n"
  · rw [if_pos ha] at hs
    subst ha
    rcases valued_inv h .count rest _ s hs with hs | ⟨v, rest', rfl, hv, hs⟩
    · exact .inl hs
    · exact .inr (.inr ⟨.count, v, rest', rfl, rfl, hv, (by rintro (hk | hk) <;> cases hk),
        (by rw [← Res.ok.inj hs]; rfl)⟩)
  rw [if_neg ha] at hs
  by_cases ha : arg = lit "-snd"
  · rw [if_pos ha] at hs
    exact .inr (.inl ⟨.flag .skipOther, by rw [ha]; rfl, trivial, trivial, by rw [← Res.ok.inj hs]; rfl⟩)
  rw [if_neg ha] at hs
  by_cases ha : arg.take 2 = lit "-p"
  · rw [if_pos ha] at hs
    obtain ⟨n, more, rfl, hm⟩ := letters_of 112 (by rw [ha]; decide +kernel)
    rw [span_replicate 112 45 n more hm] at hs
    exact .inr (.inl ⟨.details n more, rfl, hm, trivial, by rw [← Res.ok.inj hs]; rfl⟩)
  rw [if_neg ha] at hs
  by_cases ha : arg = lit "-O"
  · rw [if_pos ha] at hs
    exact .inr (.inl ⟨.flag .offsets, by rw [ha]; rfl, trivial, trivial, by rw [← Res.ok.inj hs]; rfl⟩)
  rw [if_neg ha] at hs
  by_cases ha : arg = lit "-L"
  · rw [if_pos ha] at hs
    exact .inr (.inl ⟨.flag .latency, by rw [ha]; rfl, trivial, trivial, by rw [← Res.ok.inj hs]; rfl⟩)
  rw [if_neg ha] at hs
  by_cases ha : arg = lit "-s"
  · rw [if_pos ha] at hs
    exact .inr (.inl ⟨.flag .summary, by rw [ha]; rfl, trivial, trivial, by rw [← Res.ok.inj hs]; rfl⟩)
  rw [if_neg ha] at hs
  by_cases ha : arg = lit "-d"
  · rw [if_pos ha] at hs
    exact .inr (.inl ⟨.flag .firstSamples, by rw [ha]; rfl, trivial, trivial, by rw [← Res.ok.inj hs]; rfl⟩)
  rw [if_neg ha] at hs
  by_cases ha : arg = lit "-D"
  · rw [if_pos ha] at hs
    exact .inr (.inl ⟨.flag .allSamples, by rw [ha]; rfl, trivial, trivial, by rw [← Res.ok.inj hs]; rfl⟩)
  rw [if_neg ha] at hs
  by_cases ha : arg = lit "-z"
  · rw [if_pos ha] at hs
    exact .inr (.inl ⟨.flag .raw, by rw [ha]; rfl, trivial, trivial, by rw [← Res.ok.inj hs]; rfl⟩)
  rw [if_neg ha] at hs
  by_cases ha : arg = lit "-t"
  · rw [if_pos ha] at hs
    exact .inr (.inl ⟨.flag .traces, by rw [ha]; rfl, trivial, trivial, by rw [← Res.ok.inj hs]; rfl⟩)
  rw [if_neg ha] at hs
  by_cases ha : arg = lit "-T"
  · rw [if_pos ha] at hs
    exact .inr (.inl ⟨.flag .onlyTraces, by rw [ha]; rfl, trivial, trivial, by rw [← Res.ok.inj hs]; rfl⟩)
  rw [if_neg ha] at hs
  by_cases ha : arg = lit "-tg"
  · rw [if_pos ha] at hs
    exact .inr (.inl ⟨.flag .estimates, by rw [ha]; rfl, trivial, trivial, by rw [← Res.ok.inj hs]; rfl⟩)
  rw [if_neg ha] at hs
  by_cases ha : arg = lit "-tt"
  · rw [if_pos ha] at hs
    subst ha
    rcases valued_inv h .timeTolerance rest _ s hs with hs | ⟨v, rest', rfl, hv, hs⟩
    · exact .inl hs
    · exact .inr (.inr ⟨.timeTolerance, v, rest', rfl, rfl, hv, (by rintro (hk | hk) <;> cases hk),
        (by rw [← Res.ok.inj hs]; rfl)⟩)
  rw [if_neg ha] at hs
  by_cases ha : arg = lit "-rt"
  · rw [if_pos ha] at hs
    subst ha
    rcases valued_inv h .rateTolerance rest _ s hs with hs | ⟨v, rest', rfl, hv, hs⟩
    · exact .inl hs
    · exact .inr (.inr ⟨.rateTolerance, v, rest', rfl, rfl, hv, (by rintro (hk | hk) <;> cases hk),
        (by rw [← Res.ok.inj hs]; rfl)⟩)
  rw [if_neg ha] at hs
  by_cases ha : arg = lit "-g"
  · rw [if_pos ha] at hs
    exact .inr (.inl ⟨.flag .gaps, by rw [ha]; rfl, trivial, trivial, by rw [← Res.ok.inj hs]; rfl⟩)
  rw [if_neg ha] at hs
  by_cases ha : arg = lit "-G"
  · rw [if_pos ha] at hs
    exact .inr (.inl ⟨.flag .onlyGaps, by rw [ha]; rfl, trivial, trivial, by rw [← Res.ok.inj hs]; rfl⟩)
  rw [if_neg ha] at hs
  by_cases ha : arg = lit "-S"
  · rw [if_pos ha] at hs
    exact .inr (.inl ⟨.flag .sync, by rw [ha]; rfl, trivial, trivial, by rw [← Res.ok.inj hs]; rfl⟩)
  rw [if_neg ha] at hs
  by_cases ha : arg = lit "-gmin"
  · rw [if_pos ha] at hs
    subst ha
    rcases valued_inv h .minGap rest _ s hs with hs | ⟨v, rest', rfl, hv, hs⟩
    · exact .inl hs
    · exact .inr (.inr ⟨.minGap, v, rest', rfl, rfl, hv, (by rintro (hk | hk) <;> cases hk),
        (by rw [← Res.ok.inj hs]; rfl)⟩)
  rw [if_neg ha] at hs
  by_cases ha : arg = lit "-gmax"
  · rw [if_pos ha] at hs
    subst ha
    rcases valued_inv h .maxGap rest _ s hs with hs | ⟨v, rest', rfl, hv, hs⟩
    · exact .inl hs
    · exact .inr (.inr ⟨.maxGap, v, rest', rfl, rfl, hv, (by rintro (hk | hk) <;> cases hk),
        (by rw [← Res.ok.inj hs]; rfl)⟩)
  rw [if_neg ha] at hs
  by_cases ha : arg = lit "-Q" ∨ arg = lit "-P"
  · rw [if_pos ha] at hs
    rcases ha with ha | ha
    · exact .inr (.inl ⟨.flag .qualities, by rw [ha]; rfl, trivial, trivial, by rw [← Res.ok.inj hs]; rfl⟩)
    · exact .inr (.inl ⟨.flag .versions, by rw [ha]; rfl, trivial, trivial, by rw [← Res.ok.inj hs]; rfl⟩)
  rw [if_neg ha] at hs
  by_cases ha : arg = lit "-tf"
  · rw [if_pos ha] at hs
    subst ha
    rcases valued_inv h .timeFormat rest _ s hs with hs | ⟨v, rest', rfl, hv, hs⟩
    · exact .inl hs
    · exact .inr (.inr ⟨.timeFormat, v, rest', rfl, rfl, hv, (by rintro (hk | hk) <;> cases hk),
        (by rw [← Res.ok.inj hs]; rfl)⟩)
  rw [if_neg ha] at hs
  by_cases ha : arg = lit "-b"
  · rw [if_pos ha] at hs
    subst ha
    rcases valued_inv h .samplesTo rest _ s hs with hs | ⟨v, rest', rfl, hv, hs⟩
    · exact .inl hs
    · exact .inr (.inr ⟨.samplesTo, v, rest', rfl, rfl, hv, (by rintro (hk | hk) <;> cases hk),
        (by rw [← Res.ok.inj hs]; rfl)⟩)
  rw [if_neg ha] at hs
  by_cases ha : arg = lit "-o"
  · rw [if_pos ha] at hs
    subst ha
    rcases valued_inv h .recordsTo rest _ s hs with hs | ⟨v, rest', rfl, hv, hs⟩
    · exact .inl hs
    · exact .inr (.inr ⟨.recordsTo, v, rest', rfl, rfl, hv, (by rintro (hk | hk) <;> cases hk),
        (by rw [← Res.ok.inj hs]; rfl)⟩)
  rw [if_neg ha] at hs
  by_cases ha : arg.head? = some 45 ∧ arg.length > 1
  · rw [if_pos ha] at hs
    exact .inl ⟨_, (Res.ok.inj hs).symm⟩
  · rw [if_neg ha] at hs
    have hne := ha
    have hs := Res.ok.inj hs
    have hw : arg.head? ≠ some 45 ∨ arg = [45] := by
      cases arg with
      | nil => exact .inl (by simp)
      | cons a t =>
        cases t with
        | nil =>
          by_cases e : a = 45
          · exact .inr (by rw [e])
          · exact .inl (by simpa using e)
        | cons b t =>
          refine .inl fun e => hne ⟨e, by simp⟩
    exact input_inv h o arg s hw hs

/-- A command line that is accepted consists of items. -/
theorem params_inv (h : Host) : ∀ (n : Nat) (args : List (List UInt8)) (o o' : Options), args.length ≤ n →
    params h false args o = .ok (.run o') →
    ∃ items, line items = args ∧ (∀ i ∈ items, i.Written) ∧ (∀ i ∈ items, Fine h i) ∧
      o' = items.foldl (eff h) o := by
  intro n
  induction n with
  | zero =>
    intro args o o' hn hr
    cases args with
    | nil =>
      refine ⟨[], rfl, by simp, by simp, ?_⟩
      injection Res.ok.inj hr with hr
      exact hr.symm
    | cons a t => simp at hn
  | succ n ih =>
    intro args o o' hn hr
    cases args with
    | nil =>
      refine ⟨[], rfl, by simp, by simp, ?_⟩
      injection Res.ok.inj hr with hr
      exact hr.symm
    | cons arg rest =>
      simp only [List.length_cons] at hn
      have hr : (param h o arg rest).bind _ = _ := hr
      obtain ⟨s, hs, hr⟩ := bind_eq_ok.1 hr
      rcases param_inv h o arg rest s hs with ⟨c, rfl⟩ | ⟨i, hi, hw, hf, rfl⟩ |
        ⟨k, v, rest', rfl, rfl, hw, hf, rfl⟩
      · cases hr
      · obtain ⟨items, h1, h2, h3, h4⟩ := ih rest _ o' (by omega) hr
        refine ⟨i :: items, ?_, ?_, ?_, h4⟩
        · show i.args ++ line items = _
          rw [hi, h1]
          rfl
        · intro j hj
          rcases List.mem_cons.1 hj with rfl | hj
          · exact hw
          · exact h2 j hj
        · intro j hj
          rcases List.mem_cons.1 hj with rfl | hj
          · exact hf
          · exact h3 j hj
      · obtain ⟨items, h1, h2, h3, h4⟩ := ih rest' _ o' (by simp at hn; omega) hr
        refine ⟨.value k v :: items, ?_, ?_, ?_, h4⟩
        · show [k.name, v] ++ line items = _
          rw [h1]
          rfl
        · intro j hj
          rcases List.mem_cons.1 hj with rfl | hj
          · exact hw
          · exact h2 j hj
        · intro j hj
          rcases List.mem_cons.1 hj with rfl | hj
          · exact hf
          · exact h3 j hj

end Verif.Proof.Options
