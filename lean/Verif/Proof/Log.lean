import Verif.Props.LogDefs
/-! Lemmas about the model of logging. -/
namespace Verif.Proof.Log
open Verif.Model.Log Verif.Props.Log
open Verif.Spec.Log (Msg chomp keep reported remaining)
open Verif.Model.Steim (Res)

theorem trim_eq (m : Int) : ∀ (l : List Entry) (c : Int), 0 ≤ c → c < m →
    trim m l c = l.take (m - c).toNat := by
  intro l
  induction l with
  | nil => intro c _ _; simp [trim]
  | cons e t ih =>
    intro c h0 hc
    unfold trim
    by_cases h1 : c + 1 = m
    · rw [if_pos h1, show (m - c).toNat = 1 by omega]
      simp
    · rw [if_neg h1, if_neg (by omega), ih (c + 1) (by omega) (by omega),
        show (m - c).toNat = (m - (c + 1)).toNat + 1 by omega, List.take_succ_cons]

theorem cstring_of (a : Bytes) (h : 0 ∉ a) (rest : Buffer) :
    cstring (a.map some ++ some 0 :: rest) = some a := by
  induction a with
  | nil => simp [cstring]
  | cons c t ih =>
    have hc : c ≠ 0 := fun e => h (by simp [e])
    simp only [List.map_cons, List.cons_append]
    unfold cstring
    split
    · simp_all
    · simp_all
    · simp_all
    · rename_i heq
      injection heq with h1 h2
      injection h1 with h1
      subst h1
      subst h2
      rw [ih (fun hm => h (List.mem_cons_of_mem _ hm))]
      rfl

/-- The array holds the string `a`. -/
def Holds (buf : Buffer) (a : Bytes) : Prop :=
  ∃ rest, buf = a.map some ++ some 0 :: rest ∧ buf.length = 200

theorem put_end {a : Bytes} {buf : Buffer} (h : Holds buf a) :
    Holds (put buf 199 [0]) a := by
  obtain ⟨rest, rfl, hl⟩ := h
  have hl' := hl
  simp only [List.length_append, List.length_map, List.length_cons] at hl
  by_cases he : a.length = 199
  · have hr : rest = [] := List.eq_nil_of_length_eq_zero (by omega)
    subst hr
    refine ⟨[], ?_, ?_⟩
    · unfold put
      simp [he]
    · unfold put
      simp [he]
  · refine ⟨rest.take (198 - a.length) ++ [some 0], ?_, ?_⟩
    · unfold put
      rw [List.take_append, List.take_of_length_le (by simp; omega), List.length_map,
        show 199 - a.length = (198 - a.length) + 1 by omega, List.take_succ_cons,
        List.drop_eq_nil_of_le (by simp; omega)]
      simp
    · unfold put
      simp only [List.length_append, List.length_take, List.length_map, List.length_cons,
        List.length_drop, List.length_nil]
      omega

theorem holds_strncpy {buf : Buffer} (hb : buf.length = 200) (s : Bytes) (hs : s.length < 200) :
    Holds (strncpy buf s 200) s := by
  have hr : List.replicate (200 - s.length) (0 : UInt8) = 0 :: List.replicate (199 - s.length) 0 := by
    rw [← List.replicate_succ]
    congr 1
    omega
  refine ⟨List.replicate (199 - s.length) (some 0), ?_, ?_⟩
  · unfold strncpy put
    rw [List.take_of_length_le (l := s) (by omega), hr, List.drop_eq_nil_of_le]
    · simp only [List.take_zero, List.nil_append, List.map_append, List.map_cons, List.map_replicate,
        List.append_nil]
    · simp only [List.length_append, List.length_cons, List.length_replicate]
      omega
  · unfold strncpy put
    simp only [List.length_append, List.length_take, List.length_map, List.length_drop,
      List.length_replicate]
    omega

theorem init_eq : put (List.replicate maxLength none) 0 [0] = some 0 :: List.replicate 199 none := by
  show put (none :: List.replicate 199 none) 0 [0] = _
  generalize List.replicate 199 (none : Option UInt8) = r
  simp [put]

theorem init_length : (put (List.replicate maxLength none) 0 [0]).length = 200 := by
  rw [init_eq, List.length_cons, List.length_replicate]

theorem holds_init : Holds (put (List.replicate maxLength none) 0 [0]) [] :=
  ⟨List.replicate 199 none, init_eq, init_length⟩

theorem holds_prefixed {p : Params} (hg : Good p) (level : Int) (hl : 0 ≤ level) :
    Holds (prefixed p level (put (List.replicate maxLength none) 0 [0])) (levelPrefix p level) := by
  have hb := init_length
  unfold prefixed levelPrefix
  by_cases h2 : level ≥ 2
  · rw [if_pos h2, if_pos h2]
    cases he : p.errprefix with
    | none => exact holds_strncpy hb _ (by decide)
    | some s => exact put_end (holds_strncpy hb s (hg.err s he).1)
  · rw [if_neg h2, if_pos (by omega), if_neg h2]
    cases he : p.logprefix with
    | none => exact holds_init
    | some s => exact put_end (holds_strncpy hb s (hg.log s he).1)

theorem prefix_nul {p : Params} (hg : Good p) (level : Int) : 0 ∉ levelPrefix p level := by
  unfold levelPrefix
  by_cases h2 : level ≥ 2
  · rw [if_pos h2]
    cases he : p.errprefix with
    | none => decide
    | some s => exact (hg.err s he).2
  · rw [if_neg h2]
    cases he : p.logprefix with
    | none => decide
    | some s => exact (hg.log s he).2

theorem prefix_length {p : Params} (hg : Good p) (level : Int) : (levelPrefix p level).length < 200 := by
  unfold levelPrefix
  by_cases h2 : level ≥ 2
  · rw [if_pos h2]
    cases he : p.errprefix with
    | none => decide
    | some s => exact (hg.err s he).1
  · rw [if_neg h2]
    cases he : p.logprefix with
    | none => decide
    | some s => exact (hg.log s he).1

theorem holds_vsnprintf {buf : Buffer} {a : Bytes} (h : Holds buf a) (ha : a.length < 200)
    (text : Bytes) :
    Holds (vsnprintf buf a.length (200 - a.length) text) ((a ++ text).take 199) := by
  obtain ⟨rest, rfl, hl⟩ := h
  refine ⟨(a.map some ++ some 0 :: rest).drop
    (a.length + (text.take (200 - a.length - 1) ++ [0]).length), ?_, ?_⟩
  · unfold vsnprintf put
    rw [List.take_append, List.take_of_length_le (by simp), List.length_map, Nat.sub_self,
      List.take_zero, List.take_append, List.take_of_length_le (l := a) (by omega),
      show 200 - a.length - 1 = 199 - a.length by omega]
    simp
  · unfold vsnprintf put
    simp only [List.length_append, List.length_take, List.length_map, List.length_cons,
      List.length_drop, List.length_nil] at hl ⊢
    omega

theorem holds_get {buf : Buffer} {a : Bytes} (h : Holds buf a) (i : Nat) (hi : i < a.length) :
    buf[i]? = some (some a[i]) := by
  obtain ⟨rest, rfl, _⟩ := h
  rw [List.getElem?_append_left (by simpa using hi)]
  simp [hi]

theorem holds_end {buf : Buffer} {a : Bytes} (h : Holds buf a) : buf[a.length]? = some (some 0) := by
  obtain ⟨rest, rfl, _⟩ := h
  rw [List.getElem?_append_right (by simp)]
  simp

theorem holds_cut {buf : Buffer} {a : Bytes} (h : Holds buf a) (i : Nat) (hi : i < a.length) :
    Holds (put buf i [0]) (a.take i) := by
  obtain ⟨rest, rfl, hl⟩ := h
  refine ⟨(a.map some ++ some 0 :: rest).drop (i + 1), ?_, ?_⟩
  · unfold put
    rw [List.take_append, List.length_map, show i - a.length = 0 by omega]
    simp [List.map_take]
  · unfold put
    simp only [List.length_append, List.length_take, List.length_map, List.length_cons,
      List.length_drop, List.length_nil] at hl ⊢
    omega

theorem holds_cstring {buf : Buffer} {a : Bytes} (h : Holds buf a) (h0 : 0 ∉ a) :
    cstring buf = some a := by
  obtain ⟨rest, rfl, _⟩ := h
  exact cstring_of a h0 rest

theorem full_nul {p : Params} (hg : Good p) (level : Int) {text : Bytes} (ht : 0 ∉ text) :
    0 ∉ full p level text := by
  intro h
  unfold full at h
  have := List.mem_of_mem_take h
  rcases List.mem_append.1 this with h | h
  · exact prefix_nul hg level h
  · exact ht h

theorem printMessage_eq (p : Params) (level : Int) (m t : Bytes) :
    printMessage p level m t = call p level m t := by
  unfold printMessage call
  cases p.diagPrint <;> cases p.logPrint <;> simp

/-- A message that is printed at once. -/
theorem rlog_printed {p : Params} (hg : Good p) (f : Option Bytes) (level : Int) (text : Bytes)
    (hl : 0 ≤ level) (hn : ¬ (level ≥ 1 ∧ p.registry.maxmessages > 0)) (ht : 0 ∉ text) :
    rlog p f level text = .ok ((levelPrefix p level ++ text).length, p,
      call p level (full p level text) []) := by
  have h1 := holds_prefixed hg level hl
  have h2 := holds_cstring h1 (prefix_nul hg level)
  have h3 : Holds (put (vsnprintf (prefixed p level (put (List.replicate maxLength none) 0 [0]))
      (levelPrefix p level).length (maxLength - (levelPrefix p level).length) text) (maxLength - 1) [0])
      (full p level text) := put_end (holds_vsnprintf h1 (prefix_length hg level) text)
  have h4 := holds_cstring h3 (full_nul hg level ht)
  unfold rlog
  simp only [h2]
  rw [if_neg hn, if_pos hl, if_pos hl]
  rw [h4]
  simp only [printMessage_eq, List.length_append]
  congr 2
  omega

/-- A negative level does nothing. -/
theorem rlog_negative (p : Params) (f : Option Bytes) (level : Int) (text : Bytes) (hl : level < 0) :
    rlog p f level text = .ok (0, p, []) := by
  have h1 := holds_cstring holds_init (by simp)
  have h2 : prefixed p level (put (List.replicate maxLength none) 0 [0]) =
      put (List.replicate maxLength none) 0 [0] := by
    unfold prefixed
    rw [if_neg (by omega), if_neg (by omega)]
  unfold rlog
  simp only [h2, h1]
  rw [if_neg (show ¬ (level ≥ 1 ∧ p.registry.maxmessages > 0) by omega), if_neg (by omega),
    if_neg (by omega)]
  simp only [h1]
  rw [printMessage_eq]
  unfold call
  rw [if_neg (by omega), if_neg (by omega)]

/-- The message kept in the registry. -/
def registered (p : Params) (level : Int) (text : Bytes) : Bytes :=
  if (levelPrefix p level ++ text).length ≤ 199 then chomp (full p level text) else full p level text

/-- The characters returned as formatted. -/
def formattedLength (p : Params) (level : Int) (text : Bytes) : Int :=
  if (levelPrefix p level ++ text).length ≤ 199 then (chomp (full p level text)).length
  else (levelPrefix p level ++ text).length

theorem chomp_some {s : Bytes} {c : UInt8} (h : s.getLast? = some c) :
    chomp s = if c = 10 then s.take (s.length - 1) else s := by
  unfold chomp
  rw [h, List.dropLast_eq_take]
  by_cases hc : c = 10 <;> simp [hc]

/-- A message that is registered. -/
theorem rlog_registered {p : Params} (hg : Good p) (f : Option Bytes) (level : Int) (text : Bytes)
    (hl : 1 ≤ level) (hm : 0 < p.registry.maxmessages) (ht : 0 ∉ text)
    (h0 : levelPrefix p level ++ text ≠ []) (hlen : (levelPrefix p level ++ text).length ≤ 200) :
    rlog p f level text =
      (addMessage p.registry f level (registered p level text)).bind fun r =>
        .ok (formattedLength p level text, { p with registry := r }, []) := by
  have h1 := holds_prefixed hg level (by omega)
  have h2 := holds_cstring h1 (prefix_nul hg level)
  have h3 : Holds (put (vsnprintf (prefixed p level (put (List.replicate maxLength none) 0 [0]))
      (levelPrefix p level).length (maxLength - (levelPrefix p level).length) text) (maxLength - 1) [0])
      (full p level text) := put_end (holds_vsnprintf h1 (prefix_length hg level) text)
  have h4 := holds_cstring h3 (full_nul hg level ht)
  have hpos : 0 < (levelPrefix p level ++ text).length := List.length_pos_iff.2 h0
  have hprint : ((text.length : Int) + (levelPrefix p level).length) =
      (levelPrefix p level ++ text).length := by
    rw [List.length_append]; omega
  have hfl : (full p level text).length = min 199 (levelPrefix p level ++ text).length := by
    unfold full
    rw [List.length_take]
  unfold rlog
  simp only [h2]
  have hl0 : level ≥ 0 := by omega
  rw [if_pos (show level ≥ 1 ∧ p.registry.maxmessages > 0 from ⟨hl, hm⟩)]
  simp only [if_pos hl0, hprint]
  rw [if_neg (by unfold maxLength; omega)]
  generalize hL : (levelPrefix p level ++ text).length = L at *
  have hcast : ((L : Int) - 1).toNat = L - 1 := by omega
  rw [hcast]
  unfold registered formattedLength
  rw [hL]
  generalize put (vsnprintf (prefixed p level (put (List.replicate maxLength none) 0 [0]))
    (levelPrefix p level).length (maxLength - (levelPrefix p level).length) text) (maxLength - 1) [0] =
      buf at *
  by_cases h199 : L ≤ 199
  · have hfull : (full p level text).length = L := by omega
    obtain ⟨c, hget, hlast⟩ : ∃ c, buf[L - 1]? = some (some c) ∧
        (full p level text).getLast? = some c := by
      refine ⟨(full p level text)[L - 1], holds_get h3 (L - 1) (by omega), ?_⟩
      rw [List.getLast?_eq_getElem?, ← List.getElem?_eq_getElem]
      congr 1
      omega
    rw [hget, if_pos h199, if_pos h199, chomp_some hlast, hfull]
    by_cases hc : c = 10
    · have hcut := holds_cut h3 (L - 1) (by omega)
      have hcs := holds_cstring hcut (fun hx => full_nul hg level ht (List.mem_of_mem_take hx))
      simp only [hc, decide_true, if_true]
      rw [hcs]
      simp only [List.length_take, hfull]
      congr 1
      funext r
      congr 2
      omega
    · simp only [hc, decide_false, if_false, Bool.false_eq_true]
      rw [h4]
      simp only [hfull]
  · have hL : L = 200 := by omega
    subst hL
    have hfull : (full p level text).length = 199 := by omega
    have hget := holds_end h3
    rw [hfull] at hget
    show (match buf[199]? with | some (some c) => _ | _ => _) = _
    rw [hget]
    simp only [show ((0 : UInt8) = 10) = False by decide, decide_false, Bool.false_eq_true, if_false]
    rw [h4]
    simp

theorem registered_length (p : Params) (level : Int) (text : Bytes) :
    (registered p level text).length ≤ 199 := by
  have hfl : (full p level text).length ≤ 199 := by
    unfold full; rw [List.length_take]; omega
  have hch : (chomp (full p level text)).length ≤ 199 := by
    unfold chomp
    split
    · rw [List.length_dropLast]; omega
    · exact hfl
  unfold registered
  split
  · exact hch
  · exact hfl

theorem addMessage_ok (r : Registry) (f : Option Bytes) (level : Int) (m : Bytes)
    (hm : 0 < r.maxmessages) (hc : (r.messages.length : Int) ≤ r.messagecnt)
    (hb : r.messagecnt < 2147483647) (hl : m.length ≤ 199) :
    addMessage r f level m = .ok { r with
      messagecnt := r.messagecnt + 1
      messages := (⟨level, (f.getD []).take 29, m⟩ :: r.messages).take r.maxmessages.toNat } := by
  unfold addMessage
  simp only
  rw [if_neg (by omega)]
  have e : m.take (maxLength - 1) = m := List.take_of_length_le hl
  rw [e]
  split
  · rw [trim_eq _ _ _ (by omega) hm, Int.sub_zero]
  · rename_i hle
    have hle : ¬ (r.messagecnt + 1 > r.maxmessages) := hle
    rw [List.take_of_length_le (i := r.maxmessages.toNat) (by rw [List.length_cons]; omega)]

theorem pop_all : ∀ (l : List Entry) (c : Int) (out : List Entry), c < 0 →
    pop l c out = ([], l.reverse ++ out) := by
  intro l
  induction l with
  | nil => intro c out _; simp [pop]
  | cons e t ih =>
    intro c out hc
    unfold pop
    rw [if_neg (by omega), if_neg (by omega), ih _ _ hc]
    simp

theorem pop_some : ∀ (l : List Entry) (n : Nat) (out : List Entry),
    pop l n out = (l.drop n, (l.take n).reverse ++ out) := by
  intro l
  induction l with
  | nil => intro c out; simp [pop]
  | cons e t ih =>
    intro n out
    unfold pop
    cases n with
    | zero => simp
    | succ n =>
      rw [if_neg (by omega), if_pos (by omega), show ((n + 1 : Nat) : Int) - 1 = (n : Nat) by omega, ih]
      simp

theorem emitText_eq (context : Bool) (e : Entry) (hf : e.function.length ≤ 29) :
    emitText context e = withContext context (toMsg e) := by
  unfold emitText withContext toMsg
  simp only
  split
  · rw [List.take_of_length_le]
    · rfl
    · simp only [List.length_append, List.length_take, List.length_cons, List.length_nil]
      unfold maxLength
      omega
  · rfl

/-! ### Histories -/

theorem expected_registry (p : Params) (r : Registry) : ∀ (ops : List Op) (m : Nat) (q : List Msg),
    expected { p with registry := r } m q ops = expected p m q ops := by
  intro ops
  induction ops with
  | nil => intro m q; rfl
  | cons op ops ih =>
    intro m q
    cases op with
    | log f level text =>
      unfold expected
      rw [ih, ih]
      rfl
    | emit count context =>
      unfold expected
      rw [ih]
      rfl
    | free => unfold expected; rw [ih]
    | limit n => unfold expected; rw [ih]

theorem fits_registry (p : Params) (r : Registry) (op : Op) :
    Fits { p with registry := r } op ↔ Fits p op := Iff.rfl

/-- What holds between operations besides `Good`. -/
def Short (p : Params) : Prop := ∀ e ∈ p.registry.messages, e.function.length ≤ 29

theorem queue_add (l : List Entry) (e : Entry) (m : Nat) :
    (((e :: l).take m).reverse.map toMsg) = keep m (l.reverse.map toMsg) (toMsg e) := by
  unfold keep
  rw [List.reverse_take]
  simp [List.map_drop]

theorem queue_emit (l : List Entry) (count : Int) :
    (pop l (if count > 0 then count else -1) []).1.reverse.map toMsg =
      remaining (l.reverse.map toMsg) count ∧
    (pop l (if count > 0 then count else -1) []).2.map toMsg = reported (l.reverse.map toMsg) count := by
  unfold remaining reported
  by_cases h : count > 0
  · obtain ⟨n, rfl⟩ : ∃ n : Nat, count = n := ⟨count.toNat, by omega⟩
    rw [if_pos h, if_pos h, if_pos h, pop_some]
    simp only [List.append_nil, Int.toNat_natCast, List.length_map, List.length_reverse]
    rw [List.reverse_drop, List.reverse_take, List.map_take, List.map_drop]
    exact ⟨rfl, rfl⟩
  · rw [if_neg h, if_neg h, if_neg h, pop_all _ _ _ (by omega)]
    simp

theorem pop_mem (l : List Entry) (count : Int) :
    (∀ e ∈ (pop l (if count > 0 then count else -1) []).1, e ∈ l) ∧
    (∀ e ∈ (pop l (if count > 0 then count else -1) []).2, e ∈ l) ∧
    (pop l (if count > 0 then count else -1) []).1.length ≤ l.length := by
  by_cases h : count > 0
  · obtain ⟨n, rfl⟩ : ∃ n : Nat, count = n := ⟨count.toNat, by omega⟩
    rw [if_pos h, pop_some]
    refine ⟨fun e he => List.mem_of_mem_drop he, fun e he => ?_, by simp⟩
    simp only [List.append_nil, List.mem_reverse] at he
    exact List.mem_of_mem_take he
  · rw [if_neg h, pop_all _ _ _ (by omega)]
    simp

theorem run_expected : ∀ (ops : List Op) (p : Params), Good p → Short p →
    (∀ op ∈ ops, Fits p op) → p.registry.messagecnt + logs ops ≤ 2147483647 →
    ∃ p' out, run p ops = .ok (p', out) ∧ Good p' ∧
      expected p p.registry.maxmessages.toNat (queue p) ops =
        (p'.registry.maxmessages.toNat, queue p', out) := by
  intro ops
  induction ops with
  | nil => intro p hg _ _ _; exact ⟨p, [], rfl, hg, rfl⟩
  | cons op ops ih =>
    intro p hg hs hf hc
    have hfo := hf op (by simp)
    have hfs : ∀ op ∈ ops, Fits p op := fun o ho => hf o (by simp [ho])
    cases op with
    | log f level text =>
      have hlogs : logs (.log f level text :: ops) = logs ops + 1 := rfl
      rw [hlogs] at hc
      obtain ⟨ht, hfit⟩ := hfo
      by_cases hreg : level ≥ 1 ∧ p.registry.maxmessages > 0
      · have hfit := hfit hreg.1
        have hr := rlog_registered hg f level text hreg.1 hreg.2 ht hfit.1 (by omega)
        have hreg' : registered p level text = chomp (full p level text) := by
          unfold registered
          rw [if_pos hfit.2]
        have hlen : (chomp (full p level text)).length ≤ 199 := by
          have h1 : (full p level text).length ≤ 199 := by
            unfold full; rw [List.length_take]; omega
          unfold chomp
          split
          · rw [List.length_dropLast]; omega
          · exact h1
        rw [hreg', addMessage_ok _ _ _ _ hreg.2 hg.cnt (by omega) hlen] at hr
        simp only [Res.bind] at hr
        generalize hp1 : ({ p with registry := { p.registry with
          messagecnt := p.registry.messagecnt + 1
          messages := ((⟨level, (f.getD []).take 29, chomp (full p level text)⟩ : Entry) ::
            p.registry.messages).take p.registry.maxmessages.toNat } } : Params) = p1 at hr
        have hg1 : Good p1 := by
          subst hp1
          refine ⟨hg.log, hg.err, hg.max, ?_⟩
          have := hg.cnt
          simp only [List.length_take, List.length_cons]
          omega
        have hs1 : Short p1 := by
          subst hp1
          intro e he
          have he := List.mem_of_mem_take he
          rcases List.mem_cons.1 he with rfl | he
          · simp only [List.length_take]; omega
          · exact hs e he
        have hf1 : ∀ op ∈ ops, Fits p1 op := by
          subst hp1
          exact fun o ho => (fits_registry _ _ _).2 (hfs o ho)
        have hc1 : p1.registry.messagecnt + logs ops ≤ 2147483647 := by
          subst hp1
          show p.registry.messagecnt + 1 + logs ops ≤ _
          omega
        obtain ⟨p', out, hrun, hg', hexp⟩ := ih p1 hg1 hs1 hf1 hc1
        refine ⟨p', out, ?_, hg', ?_⟩
        · unfold run
          simp only [hr, Res.bind, hrun, List.nil_append]
        · unfold expected
          rw [if_pos ⟨hreg.1, by omega⟩, ← hexp]
          subst hp1
          refine Eq.trans ?_ (expected_registry p _ ops _ _).symm
          exact congrArg (fun q => expected p p.registry.maxmessages.toNat q ops)
            (queue_add p.registry.messages
              ⟨level, (f.getD []).take 29, chomp (full p level text)⟩ _).symm
      · have hr : ∃ n, rlog p f level text = .ok (n, p, call p level (full p level text) []) := by
          by_cases hl : 0 ≤ level
          · exact ⟨_, rlog_printed hg f level text hl hreg ht⟩
          · refine ⟨0, ?_⟩
            rw [rlog_negative p f level text (by omega)]
            unfold call
            rw [if_neg (by omega), if_neg (by omega)]
        obtain ⟨n, hr⟩ := hr
        obtain ⟨p', out, hrun, hg', hexp⟩ := ih p hg hs hfs (by omega)
        refine ⟨p', call p level (full p level text) [] ++ out, ?_, hg', ?_⟩
        · unfold run
          simp only [hr, Res.bind, hrun]
        · unfold expected
          rw [if_neg (by omega), hexp]
    | emit count context =>
      have hlogs : logs (.emit count context :: ops) = logs ops := rfl
      rw [hlogs] at hc
      obtain ⟨m1, m2, m3⟩ := pop_mem p.registry.messages count
      obtain ⟨q1, q2⟩ := queue_emit p.registry.messages count
      have hg1 : Good (emit p count context).2.1 := by
        refine ⟨hg.log, hg.err, hg.max, ?_⟩
        have := hg.cnt
        show ((pop p.registry.messages (if count > 0 then count else -1) []).1.length : Int) ≤ _
        show _ ≤ p.registry.messagecnt
        omega
      obtain ⟨p', out, hrun, hg', hexp⟩ := ih (emit p count context).2.1 hg1
        (fun e he => hs e (m1 e he)) (fun o ho => (fits_registry _ _ _).2 (hfs o ho)) hc
      refine ⟨p', (emit p count context).2.2 ++ out, ?_, hg', ?_⟩
      · unfold run
        simp only [Res.bind, hrun]
      · have hq : queue (emit p count context).2.1 = remaining (queue p) count := q1
        have hm : (emit p count context).2.1.registry.maxmessages = p.registry.maxmessages := rfl
        rw [hq, hm] at hexp
        have he : expected (emit p count context).2.1 p.registry.maxmessages.toNat
            (remaining (queue p) count) ops =
          expected p p.registry.maxmessages.toNat (remaining (queue p) count) ops :=
          expected_registry _ _ _ _ _
        rw [he] at hexp
        unfold expected
        rw [hexp]
        have hlines : (emit p count context).2.2 =
            (reported (queue p) count).flatMap fun x => call p x.level (withContext context x) [10] := by
          rw [show reported (queue p) count = _ from q2.symm]
          show (pop p.registry.messages (if count > 0 then count else -1) []).2.flatMap _ = _
          rw [List.flatMap_map]
          refine congrArg List.flatten (List.map_congr_left fun e he => ?_)
          rw [printMessage_eq, emitText_eq context e (hs e (m2 e he))]
          rfl
        rw [hlines]
    | free =>
      have hlogs : logs (.free :: ops) = logs ops := rfl
      rw [hlogs] at hc
      have hg1 : Good (free p).2 := by
        refine ⟨hg.log, hg.err, hg.max, ?_⟩
        have := hg.cnt
        show ((0 : Nat) : Int) ≤ p.registry.messagecnt
        omega
      obtain ⟨p', out, hrun, hg', hexp⟩ := ih (free p).2 hg1
        (fun e he => by cases he) (fun o ho => (fits_registry _ _ _).2 (hfs o ho)) hc
      refine ⟨p', out, ?_, hg', ?_⟩
      · unfold run
        simp only [Res.bind, hrun, List.nil_append]
      · unfold expected
        rw [← hexp]
        exact (expected_registry _ _ _ _ _).symm
    | limit n =>
      have hlogs : logs (.limit n :: ops) = logs ops := rfl
      rw [hlogs] at hc
      have hr : rloginit p false none false none n =
          .ok ({ p with registry := { p.registry with maxmessages := (n : Int) } }, []) := by
        unfold rloginit setPrefix
        simp only [Res.bind, Bool.false_eq_true, if_false]
        rw [if_pos (by omega)]
        rfl
      have hg1 : Good { p with registry := { p.registry with maxmessages := (n : Int) } } :=
        ⟨hg.log, hg.err, by show 0 ≤ (n : Int); omega, hg.cnt⟩
      obtain ⟨p', out, hrun, hg', hexp⟩ := ih _ hg1 hs
        (fun o ho => (fits_registry _ _ _).2 (hfs o ho)) hc
      refine ⟨p', out, ?_, hg', ?_⟩
      · unfold run
        simp only [hr, Res.bind, hrun, List.nil_append]
      · unfold expected
        rw [← hexp]
        exact (expected_registry _ _ _ _ _).symm

/-! ### Setting the parameters -/

theorem rlog_error {p : Params} (hg : Good p) (f : Option Bytes) (text : Bytes) (ht : 0 ∉ text)
    (h0 : text ≠ []) (hl : (levelPrefix p 2 ++ text).length ≤ 199)
    (hc : p.registry.messagecnt < 2147483647) :
    ∃ n r out, rlog p f 2 text = .ok (n, { p with registry := r }, out) ∧
      Good { p with registry := r } ∧ r.maxmessages = p.registry.maxmessages ∧
      r.messagecnt ≤ p.registry.messagecnt + 1 := by
  by_cases hm : 0 < p.registry.maxmessages
  · have h := rlog_registered hg f 2 text (by omega) hm ht (by simp [h0]) (by omega)
    have hrl := registered_length p 2 text
    rw [addMessage_ok _ _ _ _ hm hg.cnt hc hrl] at h
    simp only [Res.bind] at h
    refine ⟨_, _, _, h, ⟨hg.log, hg.err, hg.max, ?_⟩, rfl, Int.le_refl _⟩
    have := hg.cnt
    simp only [List.length_take, List.length_cons]
    omega
  · exact ⟨_, p.registry, _, rlog_printed hg f 2 text (by omega) (fun h => hm h.2) ht, hg, rfl, by omega⟩

/-- The fields after setting a prefix. -/
theorem setLog {p : Params} (hg : Good p) (s : Option Bytes) (hs : ∀ x, s = some x → 0 ∉ x)
    (hroom : (levelPrefix p 2).length ≤ 166) (hc : p.registry.messagecnt < 2147483647) :
    ∃ p' out, setPrefix p s (fun p s => { p with logprefix := some s }) logPrefixLarge = .ok (p', out) ∧
      Good p' ∧ (p'.logprefix = chosen s p.logprefix ∧ p'.errprefix = p.errprefix ∧
        p'.logPrint = p.logPrint ∧ p'.diagPrint = p.diagPrint ∧
        p'.registry.maxmessages = p.registry.maxmessages ∧
        p'.registry.messagecnt ≤ p.registry.messagecnt + 1) := by
  cases s with
  | none => exact ⟨p, [], rfl, hg, rfl, rfl, rfl, rfl, rfl, by omega⟩
  | some x =>
    by_cases hx : x.length < 200
    · refine ⟨{ p with logprefix := some x }, [], ?_, ⟨?_, hg.err, hg.max, hg.cnt⟩, ?_, rfl, rfl, rfl,
        rfl, by show p.registry.messagecnt ≤ _; omega⟩
      · unfold setPrefix
        simp only
        rw [if_neg (show ¬ (x.length ≥ maxLength) by unfold maxLength; omega)]
      · intro y hy
        injection hy with hy
        subst hy
        exact ⟨hx, hs _ rfl⟩
      · unfold chosen
        simp only
        rw [if_pos hx]
    · obtain ⟨n, r, out, h, hg', hm, hcnt⟩ := rlog_error hg (some rloginitName) logPrefixLarge
        (by decide) (by decide) (by
          rw [List.length_append, show logPrefixLarge.length = 31 by decide]; omega) hc
      refine ⟨{ p with registry := r }, out, ?_, hg', ?_, rfl, rfl, rfl, hm, hcnt⟩
      · unfold setPrefix
        simp only
        rw [if_pos (show x.length ≥ maxLength by unfold maxLength; omega), h]
        rfl
      · unfold chosen
        simp only
        rw [if_neg hx]

theorem setErr {p : Params} (hg : Good p) (s : Option Bytes) (hs : ∀ x, s = some x → 0 ∉ x)
    (hroom : (levelPrefix p 2).length ≤ 166) (hc : p.registry.messagecnt < 2147483647) :
    ∃ p' out, setPrefix p s (fun p s => { p with errprefix := some s }) errPrefixLarge = .ok (p', out) ∧
      Good p' ∧ (p'.logprefix = p.logprefix ∧ p'.errprefix = chosen s p.errprefix ∧
        p'.logPrint = p.logPrint ∧ p'.diagPrint = p.diagPrint ∧
        p'.registry.maxmessages = p.registry.maxmessages ∧
        p'.registry.messagecnt ≤ p.registry.messagecnt + 1) := by
  cases s with
  | none => exact ⟨p, [], rfl, hg, rfl, rfl, rfl, rfl, rfl, by omega⟩
  | some x =>
    by_cases hx : x.length < 200
    · refine ⟨{ p with errprefix := some x }, [], ?_, ⟨hg.log, ?_, hg.max, hg.cnt⟩, rfl, ?_, rfl, rfl,
        rfl, by show p.registry.messagecnt ≤ _; omega⟩
      · unfold setPrefix
        simp only
        rw [if_neg (show ¬ (x.length ≥ maxLength) by unfold maxLength; omega)]
      · intro y hy
        injection hy with hy
        subst hy
        exact ⟨hx, hs _ rfl⟩
      · unfold chosen
        simp only
        rw [if_pos hx]
    · obtain ⟨n, r, out, h, hg', hm, hcnt⟩ := rlog_error hg (some rloginitName) errPrefixLarge
        (by decide) (by decide) (by
          rw [List.length_append, show errPrefixLarge.length = 33 by decide]; omega) hc
      refine ⟨{ p with registry := r }, out, ?_, hg', rfl, ?_, rfl, rfl, hm, hcnt⟩
      · unfold setPrefix
        simp only
        rw [if_pos (show x.length ≥ maxLength by unfold maxLength; omega), h]
        rfl
      · unfold chosen
        simp only
        rw [if_neg hx]

end Verif.Proof.Log
