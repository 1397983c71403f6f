import Verif.Model.UrlSettings
import Verif.Spec.UrlSettings
/-!
# Settings of requests for URLs (C137)
-/
namespace Verif.Props.UrlSettings
open Verif.Model.UrlSettings Verif.Spec.UrlSettings

/-- What a call asks for. -/
def asks (curl : List UInt8) : Op → Option Call
  | .addheader h _ => h.map .header
  | .useragent p v _ => p.map fun p => .header (agentLine curl p v)
  | .userpassword u _ _ _ => u.map .login
  | .freeheaders => some .forget

/-- What the calls that returned 0 asked for. -/
def accepted (curl : List UInt8) : List Op → List Int → List Call
  | op :: ops, r :: rs => (if r = 0 then (asks curl op).toList else []) ++ accepted curl ops rs
  | _, _ => []

theorem agentText_eq (curl p : List UInt8) (v : Option (List UInt8)) :
    agentText curl p v = agentLine curl p v := by
  have e : Verif.Model.Options.lit " libmseed/3.1.2 libcurl/" = text " libmseed/3.1.2" ++ text " libcurl/" := by
    decide +kernel
  have e2 : Verif.Model.Options.lit "User-Agent: " = text "User-Agent: " := rfl
  have e3 : text "/" = [47] := by decide +kernel
  unfold agentText agentLine
  rw [e, e2, e3]
  cases v <;> simp only [List.append_assoc, List.cons_append, List.nil_append, List.append_nil]

theorem takeWhile_snoc_all {α : Type} (p : α → Bool) (l : List α) (a : α) :
    (l ++ [a]).takeWhile p = if l.all p = true then l ++ (if p a = true then [a] else []) else l.takeWhile p := by
  induction l with
  | nil => simp only [List.nil_append, List.all_nil, if_true, List.takeWhile_cons, List.takeWhile_nil]
  | cons b l ih =>
    rw [List.cons_append, List.takeWhile_cons, ih, List.all_cons, List.takeWhile_cons]
    cases p b
    · simp
    · simp only [if_true, Bool.true_and]
      split <;> simp

theorem takeWhile_all {α : Type} (p : α → Bool) (l : List α) (h : l.all p = true) : l.takeWhile p = l := by
  induction l with
  | nil => rfl
  | cons b l ih =>
    rw [List.all_cons, Bool.and_eq_true] at h
    rw [List.takeWhile_cons, if_pos h.1, ih h.2]

theorem login_cons (c : Call) (cs : List Call) : login (c :: cs) = (login cs).or c.login? := by
  unfold login
  rw [List.filterMap_cons]
  cases c.login? with
  | none => simp
  | some u => rw [List.getLast?_cons]; cases (cs.filterMap Call.login?).getLast? <;> rfl

theorem lines_cons (c : Call) (cs : List Call) :
    lines (c :: cs) = if Call.forget ∈ cs then lines cs else c.line?.toList ++ lines cs := by
  unfold lines
  rw [List.reverse_cons, takeWhile_snoc_all]
  have hall : cs.reverse.all (fun x => decide (x ≠ Call.forget)) = true ↔ Call.forget ∉ cs := by
    simp only [List.all_eq_true, List.mem_reverse, decide_eq_true_eq]
    exact ⟨fun h hm => h _ hm rfl, fun h x hx he => h (he ▸ hx)⟩
  by_cases h : Call.forget ∈ cs
  · rw [if_neg (fun hh => (hall.1 hh) h), if_pos h]
  · rw [if_pos (hall.2 h), if_neg h]
    have e : cs.reverse.takeWhile (fun x => decide (x ≠ Call.forget)) = cs.reverse := by
      exact takeWhile_all _ _ (hall.2 h)
    rw [e]
    cases c <;> simp [Call.line?, List.filterMap_cons]

/-- A call is accepted and does what it asks for, or is refused and changes nothing. -/
theorem step_cases (curl : List UInt8) (op : Op) (g : Globals)
    (hf : ∀ p v m, op = .useragent (some p) v m → (agentLine curl p v).length ≤ 1023) :
    ((step curl op g).1 = 0 ∧ ∃ c, asks curl op = some c ∧
      (step curl op g).2.headers = (if c = .forget then [] else g.headers) ++ c.line?.toList ∧
      (step curl op g).2.easy.getD none = c.login?.or (g.easy.getD none)) ∨
    ((step curl op g).1 = -1 ∧ (step curl op g).2.headers = g.headers ∧
      (step curl op g).2.easy.getD none = g.easy.getD none) := by
  cases op with
  | addheader h m =>
    cases h with
    | none => exact .inr ⟨rfl, rfl, rfl⟩
    | some l =>
      cases m with
      | false => exact .inr ⟨rfl, rfl, rfl⟩
      | true => exact .inl ⟨rfl, .header l, rfl, rfl, rfl⟩
  | useragent p v m =>
    cases p with
    | none => exact .inr ⟨rfl, rfl, rfl⟩
    | some p =>
      have hl := hf p v m rfl
      have e : (agentText curl p v).take 1023 = agentLine curl p v := by
        rw [agentText_eq, List.take_of_length_le hl]
      cases m with
      | false => exact .inr ⟨rfl, rfl, rfl⟩
      | true =>
        refine .inl ⟨rfl, .header (agentLine curl p v), rfl, ?_, rfl⟩
        show g.headers ++ [(agentText curl p v).take 1023] = _
        rw [e]
        rfl
  | userpassword u i a m =>
    cases u with
    | none => exact .inr ⟨rfl, rfl, rfl⟩
    | some u =>
      obtain ⟨hs, ez⟩ := g
      cases ez with
      | none =>
        cases i with
        | false => exact .inr ⟨rfl, rfl, rfl⟩
        | true =>
          cases a <;> cases m
          · exact .inr ⟨rfl, rfl, rfl⟩
          · exact .inr ⟨rfl, rfl, rfl⟩
          · exact .inr ⟨rfl, rfl, rfl⟩
          · exact .inl ⟨rfl, .login u, rfl, (List.append_nil _).symm, rfl⟩
      | some x =>
        cases a <;> cases m
        · exact .inr ⟨rfl, rfl, rfl⟩
        · exact .inr ⟨rfl, rfl, rfl⟩
        · exact .inr ⟨rfl, rfl, rfl⟩
        · exact .inl ⟨rfl, .login u, rfl, (List.append_nil _).symm, rfl⟩
  | freeheaders => exact .inl ⟨rfl, .forget, rfl, rfl, rfl⟩

theorem run_headers (curl : List UInt8) : ∀ (ops : List Op) (g : Globals),
    (∀ p v m, Op.useragent (some p) v m ∈ ops → (agentLine curl p v).length ≤ 1023) →
    (run curl ops g).1.length = ops.length ∧ (∀ r ∈ (run curl ops g).1, r = 0 ∨ r = -1) ∧
    (run curl ops g).2.headers = (if Call.forget ∈ accepted curl ops (run curl ops g).1 then []
      else g.headers) ++ lines (accepted curl ops (run curl ops g).1) ∧
    (run curl ops g).2.easy.getD none =
      (login (accepted curl ops (run curl ops g).1)).or (g.easy.getD none) := by
  intro ops
  induction ops with
  | nil =>
    intro g _
    refine ⟨rfl, by simp [run], by simp [run, accepted, lines], by simp [run, accepted, login]⟩
  | cons op ops ih =>
    intro g hf
    have ih := ih (step curl op g).2 (fun p v m h => hf p v m (List.mem_cons_of_mem _ h))
    have e : run curl (op :: ops) g = ((step curl op g).1 :: (run curl ops (step curl op g).2).1,
      (run curl ops (step curl op g).2).2) := rfl
    rw [e]
    simp only
    obtain ⟨i1, i2, i3, i4⟩ := ih
    have hs := step_cases curl op g (fun p v m h => hf p v m (h ▸ List.mem_cons_self))
    generalize step curl op g = st at *
    generalize run curl ops st.2 = rn at *
    refine ⟨by rw [List.length_cons, List.length_cons, i1], ?_, ?_, ?_⟩
    · intro r hr
      rcases List.mem_cons.1 hr with rfl | hr
      · rcases hs with h | h
        · exact .inl h.1
        · exact .inr h.1
      · exact i2 r hr
    · rcases hs with ⟨h0, c, hc, hh, he⟩ | ⟨h0, hh, he⟩
      · have ea : accepted curl (op :: ops) (st.1 :: rn.1) = c :: accepted curl ops rn.1 := by
          show (if st.1 = 0 then (asks curl op).toList else []) ++ _ = _
          rw [if_pos h0, hc]
          rfl
        rw [ea, i3, lines_cons, hh]
        by_cases hf : Call.forget ∈ accepted curl ops rn.1
        · rw [if_pos hf, if_pos (List.mem_cons_of_mem _ hf), if_pos hf]
        · rw [if_neg hf, if_neg hf]
          by_cases hcf : c = .forget
          · subst hcf
            rw [if_pos rfl, if_pos List.mem_cons_self]
            rfl
          · rw [if_neg hcf, if_neg (by
              intro hm
              rcases List.mem_cons.1 hm with h | h
              · exact hcf h.symm
              · exact hf h), List.append_assoc]
      · have ea : accepted curl (op :: ops) (st.1 :: rn.1) = accepted curl ops rn.1 := by
          show (if st.1 = 0 then (asks curl op).toList else []) ++ _ = _
          rw [if_neg (by rw [h0]; decide)]
          rfl
        rw [ea, i3, hh]
    · rcases hs with ⟨h0, c, hc, hh, he⟩ | ⟨h0, hh, he⟩
      · have ea : accepted curl (op :: ops) (st.1 :: rn.1) = c :: accepted curl ops rn.1 := by
          show (if st.1 = 0 then (asks curl op).toList else []) ++ _ = _
          rw [if_pos h0, hc]
          rfl
        rw [ea, i4, login_cons, he, Option.or_assoc]
      · have ea : accepted curl (op :: ops) (st.1 :: rn.1) = accepted curl ops rn.1 := by
          show (if st.1 = 0 then (asks curl op).toList else []) ++ _ = _
          rw [if_neg (by rw [h0]; decide)]
          rfl
        rw [ea, i4, he]

/-- **C137** (part).  After any calls, of which some may be refused, a request has the headers and the user
and password that the calls that returned 0 asked for: the headers in order and those before the last call
to free them not any more, user and password of the last call.  The default agent names the libraries.

Missing: names of programs that are too long, `C137_agent_cut_violated`. -/
theorem C137_settings_partial (curl : List UInt8) (ops : List Op)
    (hf : ∀ p v m, Op.useragent (some p) v m ∈ ops → (agentLine curl p v).length ≤ 1023) :
    (run curl ops {}).1.length = ops.length ∧ (∀ r ∈ (run curl ops {}).1, r = 0 ∨ r = -1) ∧
    (request curl (run curl ops {}).2).agent = text "libmseed/3.1.2" ++ (text " libcurl/" ++ curl) ∧
    (request curl (run curl ops {}).2).headers = lines (accepted curl ops (run curl ops {}).1) ∧
    (request curl (run curl ops {}).2).login = login (accepted curl ops (run curl ops {}).1) := by
  obtain ⟨h1, h2, h3, h4⟩ := run_headers curl ops {} hf
  refine ⟨h1, h2, ?_, ?_, ?_⟩
  · have e : Verif.Model.Options.lit "libmseed/3.1.2 libcurl/" = text "libmseed/3.1.2" ++ text " libcurl/" := by
      decide +kernel
    rw [← List.append_assoc, ← e]
    rfl
  · show (run curl ops {}).2.headers = _
    rw [h3]
    split <;> rfl
  · show (run curl ops {}).2.easy.getD none = _
    rw [h4]
    exact Option.or_none

/-- A header, free, another agent, a login that fails for lack of memory after one that does not. -/
example : (agentLine [56] [109, 115, 105] (some [52])).length ≤ 1023 ∧
    (run [56] [.addheader (some [88, 58, 49]) true, .freeheaders, .useragent (some [109, 115, 105]) (some [52]) true,
      .userpassword (some [117, 58, 112]) true true true, .userpassword (some [118, 58, 112]) true true false,
      .addheader none true] {}) =
    ([0, 0, 0, 0, -1, -1], { headers := [agentLine [56] [109, 115, 105] (some [52])], easy := some (some [117, 58, 112]) }) := by
  constructor <;> decide +kernel

/-- C137: no call is refused for other reasons than a pointer that is NULL or libcurl. -/
theorem C137_accepted (curl : List UInt8) (g : Globals) (text : List UInt8) (v : Option (List UInt8)) :
    (step curl (.addheader (some text) true) g).1 = 0 ∧
    (step curl (.useragent (some text) v true) g).1 = 0 ∧
    (step curl (.userpassword (some text) true true true) g).1 = 0 := by
  obtain ⟨hs, ez⟩ := g
  refine ⟨rfl, rfl, ?_⟩
  cases ez <;> rfl

/-- **C137** (violated).  With a name of 1011 bytes and more the line is the name cut, without the versions
of the libraries, with success. -/
theorem C137_agent_cut_violated (curl p : List UInt8) (v : Option (List UInt8)) (hp : 1011 ≤ p.length) :
    step curl (.useragent (some p) v true) {} =
      (0, { headers := [text "User-Agent: " ++ p.take 1011] }) := by
  show ((0 : Int), ({ headers := [(agentText curl p v).take 1023] } : Globals)) = _
  rw [agentText_eq]
  unfold agentLine
  have e : (text "User-Agent: ").length = 12 := by decide +kernel
  rw [List.append_assoc, List.take_append, e, List.take_of_length_le (by omega), List.append_assoc,
    List.take_append]
  have e2 : 1023 - 12 - p.length = 0 := by omega
  rw [e2]
  simp

example : 1011 ≤ (List.replicate 1011 (97 : UInt8)).length := by rw [List.length_replicate]; decide

/-- **C137** (violated).  A program that changes its name sends both. -/
theorem C137_agent_twice_violated (curl p q : List UInt8) :
    (request curl (run curl [.useragent (some p) none true, .useragent (some q) none true] {}).2).headers =
      [(agentLine curl p none).take 1023, (agentLine curl q none).take 1023] := by
  rw [← agentText_eq, ← agentText_eq]
  rfl

end Verif.Props.UrlSettings
