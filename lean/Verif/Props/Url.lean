import Verif.Proof.Url
/-!
# Reading from URLs (C131, C132)
-/
namespace Verif.Props.Url
open Verif.Model Verif.Model.Steim Verif.Model.Url
open Verif.Proof.Url
open Verif.Proof.Mem (bind_ok)
open Verif.Model.Options (lit)

/-! ## C131 -/

/-- **C131** Reads of a URL, of whatever sizes and in whatever pieces the bytes arrive, give the bytes of the
object in order, each once: what has been read followed by what is still to come is the object.  The end is
reported only when all of it has been read.  Missing: transfers that are broken off, which look like an end
(`C131_broken_violated`). -/
theorem C131_stream_partial {c c' : Conn} {b : List UInt8} (hc : c.running = true) (h : Reads c b c') :
    content c = b ++ content c' ∧ (feof c' = true → b = content c) := by
  have key : ∀ {c b c'}, Reads c b c' → (c.running = false → content c = []) →
      content c = b ++ content c' ∧ (c'.running = false → content c' = []) := by
    intro c b c' h
    induction h with
    | nil c => exact fun hc => ⟨by simp, hc⟩
    | cons hs hf _ ih =>
      intro hc
      obtain ⟨h1, -, h2⟩ := fread_ok hs hc hf
      obtain ⟨h3, h4⟩ := ih h2
      exact ⟨by rw [h1, h3, List.append_assoc], h4⟩
  obtain ⟨h1, h2⟩ := key h (by simp [hc])
  refine ⟨h1, fun hf => ?_⟩
  unfold feof at hf
  rw [h1, h2 (by simpa using hf), List.append_nil]

/-- **C131** A read never gives more bytes than there is room for. -/
theorem C131_room {size first : Nat} {acts rest : List Act} {c c' : Conn} {b : List UInt8} (hs : Sound acts)
    (hc : c.running = true) (h : fread size first acts c = some (b, c', rest)) : b.length ≤ size :=
  (fread_ok hs (by simp [hc]) h).2.1

/-- **C131** A read into a buffer that is at least as large as the pieces libcurl hands over gives at least
one byte or comes to the end of the object.  Missing: libcurl handing over more than one piece in the call that
ends a pause (see `C131_hang_violated`). -/
theorem C131_progress_partial {size first : Nat} {acts rest : List Act} {c c' : Conn} {b : List UInt8} (hz : 0 < size)
    (hs : Sound acts) (hp : ∀ p ∈ c.pieces, p ≠ [] ∧ p.length ≤ size) (h1 : first ≤ 1)
    (h : fread size first acts c = some (b, c', rest)) : b ≠ [] ∨ feof c' = true := by
  unfold fread at h
  by_cases hr : c.running = false
  · rw [if_pos hr] at h
    cases h
    right
    unfold feof
    rw [hr]; rfl
  · rw [if_neg hr] at h
    have hr : c.running = true := by simpa using hr
    simp only at h
    have hsm : Small size { c with paused := false } := hp
    obtain ⟨-, -, -, h4⟩ := (handOver_ok first { c with paused := false } { size := size } _ _ rfl).choose_spec
    obtain ⟨g1, g2⟩ := handOver_one h1 hsm rfl
    obtain ⟨k1, k2, -, -, -⟩ := handOver_pause first { c with paused := false } { size := size } hsm (by simp) rfl rfl
    rw [decide_eq_false (by omega)] at h
    cases hw : wait false acts (handOver first { c with paused := false } { size := size }).1
        { (handOver first { c with paused := false } { size := size }).2 with isPaused := false } with
    | none => rw [hw] at h; cases h
    | some y =>
      rw [hw] at h
      obtain ⟨c1, r1, rest1⟩ := y
      simp only [Option.map_some, Option.some.injEq, Prod.mk.injEq] at h
      obtain ⟨e1, e2, -⟩ := h
      have := wait_progress hz acts _
        { (handOver first { c with paused := false } { size := size }).2 with isPaused := false } _ _ _ hs k1 k2
        (by rw [h4]; exact hr) g1 rfl hw
      rw [← e1, ← e2]
      refine this.imp id fun h => ?_
      unfold feof
      rw [h]; rfl

/-- **C131** A read returns: at the latest after libcurl has been given control once more than there are
pieces, if it hands over a piece each time. -/
theorem C131_returns_partial {size first : Nat} {acts : List Act} {c : Conn} (hs : Sound acts)
    (hp : ∀ p ∈ c.pieces, p ≠ [] ∧ p.length ≤ size) (h1 : first ≤ 1) (ha : ∀ a ∈ acts, 0 < a.pieces ∧ a.finish = true)
    (hl : c.pieces.length < acts.length) : ∃ x, fread size first acts c = some x := by
  unfold fread
  by_cases hr : c.running = false
  · rw [if_pos hr]; exact ⟨_, rfl⟩
  · rw [if_neg hr]
    simp only
    have hsm : Small size { c with paused := false } := hp
    obtain ⟨g1, g2⟩ := handOver_one h1 hsm rfl
    obtain ⟨k1, k2, -, -, -⟩ := handOver_pause first { c with paused := false } { size := size } hsm (by simp) rfl rfl
    have hle : (handOver first { c with paused := false } { size := size }).1.pieces.length ≤ c.pieces.length := by
      clear g1 g2 k1 k2
      have : ∀ (n : Nat) (c : Conn) (r : Rcp), (handOver n c r).1.pieces.length ≤ c.pieces.length := by
        intro n
        induction n with
        | zero => intro c r; rw [handOver]; exact Nat.le_refl _
        | succ n ih =>
          intro c r
          rw [handOver]
          split
          · exact Nat.le_refl _
          · rename_i p t he
            unfold recvCallback
            split
            · rename_i h
              split at h
              · cases h
              · cases h
                have := ih { c with pieces := t } { r with got := r.got ++ p, size := r.size - p.length }
                rw [he, List.length_cons]
                simp only at this
                omega
            · exact Nat.le_refl _
      exact this first { c with paused := false } { size := size }
    obtain ⟨x, hx⟩ := wait_ends (null := decide (size = 0)) acts _
      { (handOver first { c with paused := false } { size := size }).2 with isPaused := false } hs k1 k2 g1 rfl ha
      (Nat.lt_of_le_of_lt hle hl)
    rw [hx]
    exact ⟨_, rfl⟩

/-- A connection with five bytes in three pieces. -/
def five : Conn := { pieces := [[1, 2], [3, 4], [5]] }

example : ∃ x, fread 4 0 (List.replicate 4 { pieces := 1, finish := true }) five = some x :=
  C131_returns_partial (by intro a ha; rw [List.eq_of_mem_replicate ha]) (by decide) (by decide)
    (by intro a ha; rw [List.eq_of_mem_replicate ha]; exact ⟨by decide, rfl⟩) (by decide)

/-- Two reads, of three and of four bytes: the second piece does not fit into the first buffer. -/
example : Reads five [1, 2, 3, 4, 5] { pieces := [], running := false } := by
  have h1 : fread 3 0 [{ pieces := 9 }] five = some ([1, 2], { pieces := [[3, 4], [5]], paused := true }, []) := by decide +kernel
  have h2 : fread 4 1 [{ pieces := 9, finish := true }] { pieces := [[3, 4], [5]], paused := true } =
      some ([3, 4, 5], { pieces := [], running := false }, []) := by decide +kernel
  exact .cons (b := [1, 2]) (by intro a ha; simp at ha; rw [ha]) h1 (.cons (b := [3, 4, 5]) (bs := []) (by intro a ha; simp at ha; rw [ha]) h2 (.nil _))

example : ([1, 2] : List UInt8) ≠ [] ∨ feof { pieces := [[3, 4], [5]], paused := true } = true :=
  C131_progress_partial (size := 3) (first := 0) (acts := [{ pieces := 9 }]) (rest := []) (c := five) (by decide)
    (by intro a ha; simp at ha; rw [ha]) (by decide) (by decide) (by decide +kernel)

/-- **C131, violated** A transfer that is broken off looks like the end of the object: the bytes read are not
all of it, and nothing tells them from a complete object. -/
theorem C131_broken_violated :
    fread 100 0 [{ pieces := 2 }, { broken := true }] five = some ([1, 2, 3, 4], { pieces := [[5]], running := false }, []) ∧
      feof { pieces := [[5]], running := false } = true := by
  decide +kernel

/-- **C131, violated** If the call that ends a pause hands over pieces until one does not fit any more, the
note of the new pause is overwritten: the read waits for a connection that is paused, whatever libcurl does
later. -/
theorem C131_hang_violated (acts : List Act) (hs : Sound acts) :
    fread 4 2 acts { pieces := [[1, 2], [3, 4, 5]], paused := true } = none := by
  have : ∀ (acts : List Act), Sound acts →
      wait false acts { pieces := [[3, 4, 5]], paused := true } { got := [1, 2], size := 2 } = none := by
    intro acts
    induction acts with
    | nil => intro _; rfl
    | cons a as ih =>
      intro h
      rw [wait]
      unfold perform
      rw [if_neg (by simp [h a (by simp)]), if_pos rfl]
      simp only
      rw [if_pos (by simp)]
      exact ih fun x hx => h x (by simp [hx])
  have h := this acts hs
  show (wait false acts { pieces := [[3, 4, 5]], paused := true } { got := [1, 2], size := 2 }).map _ = none
  rw [h]
  rfl

/-- **C131, violated** A read into a buffer that is smaller than the next piece gives nothing although the
object is not at its end.  (`ms3_readmsr` takes this for an error, which it meets when the rest of its buffer
behind a long record is short.) -/
theorem C131_small_buffer_violated {size : Nat} {p : List UInt8} {t : List (List UInt8)} (h : size < p.length) :
    ∃ c', fread size 0 [{ pieces := 1 }] { pieces := p :: t } = some ([], c', []) ∧ feof c' = false ∧ content c' = p ++ t.flatten := by
  refine ⟨{ pieces := p :: t, paused := true }, ?_, rfl, rfl⟩
  unfold fread
  rw [if_neg (by simp)]
  simp only [handOver]
  rw [wait]
  unfold perform
  simp only [handOver, recvCallback, if_pos h]
  simp

/-! ## C132 -/

/-- **C132** A line of the header that gives the range, in upper or lower case, sets the offsets to the
range. -/
theorem C132_header {line : List UInt8} {a b : Nat} (h : Spec.Url.ContentRange line a b) (ha : a < 2 ^ 63) (hb : b < 2 ^ 63)
    (s e : Int) : headerCallback line s e = .ok ((a : Int), (b : Int)) := headerCallback_ok h ha hb s e

/-- **C132** Any other line leaves them alone. -/
theorem C132_other_header {line : List UInt8} (h : ¬ Spec.Url.Named line) (s e : Int) :
    headerCallback line s e = .ok (s, e) := headerCallback_other h s e

example : Spec.Url.ContentRange (lit "content-RANGE: bytes  512-1023/4096\r\n") 512 1023 :=
  ⟨lit "content-RANGE: bytes", lit "  ", lit "512", lit "1023", lit "4096\r\n", by decide +kernel, by decide +kernel, by decide +kernel,
    ⟨⟨by unfold Spec.PathRange.Digit; decide +kernel, by decide +kernel⟩, by decide +kernel, by decide +kernel⟩,
    ⟨⟨by unfold Spec.PathRange.Digit; decide +kernel, by decide +kernel⟩, by decide +kernel, by decide +kernel⟩⟩

theorem asks_ok {start stop : Int} (h0 : 0 ≤ start) (h1 : start < 2 ^ 63) (h2 : 0 ≤ stop) (h3 : stop < 2 ^ 63)
    (h : start > 0 ∨ stop > 0) :
    ∃ text, rangeAsked start stop = some text ∧
      Spec.Url.Asks text start.toNat (if stop > 0 then some stop.toNat else none) := by
  unfold rangeAsked
  rw [if_pos h]
  refine ⟨_, rfl, ?_⟩
  have hs : Spec.Url.Numeral (if start > 0 then num start else if stop > 0 then lit "0" else []) start.toNat := by
    by_cases hp : start > 0
    · rw [if_pos hp]; exact num_numeral h0 h1
    · have : start = 0 := by omega
      subst this
      rw [if_neg hp, if_pos (by omega)]
      exact ⟨⟨by unfold Spec.PathRange.Digit; decide +kernel, by decide +kernel⟩, by decide +kernel, by decide +kernel⟩
  by_cases hp : stop > 0
  · exact ⟨_, num stop, by simp only [if_pos hp]; simp, hs, by simp only [if_pos hp]; exact num_numeral h2 h3⟩
  · exact ⟨_, [], by simp only [if_neg hp]; simp, hs, by simp only [if_neg hp]⟩

/-- **C132** Opening a URL with a range of bytes, on a server that honours requests for ranges: the stream has
exactly the bytes of the object from the start up to the end of the range (or of the object), the position
starts at the position of the first of them in the object, and the end that is noted is the position of the
last.  Without a range the stream has the whole object.  Missing: servers that answer with the whole object
(`C132_ignored_violated`). -/
theorem C132_open_partial {object : List UInt8} {server : Option (List UInt8) → Answer} (hs : Honours object server) {start stop : Int}
    {first : Nat} {acts : List Act} (h0 : 0 ≤ start) (h1 : start < object.length) (h2 : stop = 0 ∨ start ≤ stop) (h3 : stop < 2 ^ 63)
    (hl : object.length ≤ 2 ^ 63) (ha : Sound acts) (hw : urlOpen server start stop first acts ≠ .err) :
    ∃ stop' c, urlOpen server start stop first acts = .ok (some (start, stop', c)) ∧
      if start = 0 ∧ stop = 0 then stop' = 0 ∧ content c = object
      else stop' = (Spec.Url.lastByte object.length (if stop > 0 then some stop.toNat else none) : Nat) ∧
        content c = Spec.Url.slice object start.toNat (Spec.Url.lastByte object.length (if stop > 0 then some stop.toNat else none)) := by
  unfold urlOpen at hw ⊢
  simp only at hw ⊢
  by_cases hn : start = 0 ∧ stop = 0
  · have hr : rangeAsked start stop = none := by unfold rangeAsked; rw [if_neg (by omega)]
    obtain ⟨g1, g2, g3⟩ := hs.whole
    rw [hr, headers_others _ _ _ g3, bind_ok] at hw ⊢
    cases hf : fread 0 first acts { pieces := (server none).pieces } with
    | none => rw [hf] at hw; exact absurd rfl hw
    | some x =>
      obtain ⟨b, c, rest⟩ := x
      obtain ⟨k1, k2, -⟩ := fread_ok ha (by simp) hf
      simp only
      rw [if_neg (by omega)]
      refine ⟨stop, c, rfl, ?_⟩
      rw [if_pos hn]
      refine ⟨hn.2, ?_⟩
      have : b = [] := List.length_eq_zero_iff.1 (by omega)
      rw [this, List.nil_append] at k1
      rw [← k1, ← g2]
      rfl
  · obtain ⟨text, hr, hk⟩ := asks_ok h0 (by omega) (by omega) h3 (by omega)
    obtain ⟨g1, g2, l1, line, l2, g3, g4, g5⟩ := hs.part text _ _ hk (by omega) (by
      unfold Spec.Url.lastByte
      by_cases hp : stop > 0
      · rw [if_pos hp]; simp only; omega
      · rw [if_neg hp]; simp only; omega)
    have hlast : Spec.Url.lastByte object.length (if stop > 0 then some stop.toNat else none) < 2 ^ 63 := by
      unfold Spec.Url.lastByte
      split <;> omega
    rw [hr, g3, headers_append _ _ _ _ (fun l hl => g5 l (by simp [hl])), headers, headerCallback_ok g4 (by omega) hlast, bind_ok,
      headers_others _ _ _ (fun l hl => g5 l (by simp [hl])), bind_ok] at hw ⊢
    cases hf : fread 0 first acts { pieces := (server (some text)).pieces } with
    | none => rw [hf] at hw; exact absurd rfl hw
    | some x =>
      obtain ⟨b, c, rest⟩ := x
      obtain ⟨k1, k2, -⟩ := fread_ok ha (by simp) hf
      simp only
      rw [if_neg (by omega), Int.toNat_of_nonneg h0]
      refine ⟨_, c, rfl, ?_⟩
      rw [if_neg hn]
      refine ⟨rfl, ?_⟩
      have : b = [] := List.length_eq_zero_iff.1 (by omega)
      rw [this, List.nil_append] at k1
      rw [← k1, ← g2]
      rfl

/-- **C132** A status of 400 to 599 is an error. -/
theorem C132_status {server : Option (List UInt8) → Answer} {start stop : Int} {first : Nat} {acts : List Act}
    {x : Option (Int × Int × Conn)}
    (hs : 400 ≤ (server (rangeAsked start stop)).status ∧ (server (rangeAsked start stop)).status < 600)
    (h : urlOpen server start stop first acts = .ok x) : x = none := by
  unfold urlOpen at h
  simp only at h
  obtain ⟨y, -, hy⟩ := Proof.Mem.bind_eq_ok.1 h
  split at hy
  · cases hy
  · rw [if_pos hs] at hy
    exact (Res.ok.inj hy).symm

/-- **C132, violated** A server may answer a request for a range with the whole object.  The offsets stay as
asked for, so that the first byte of the object is taken for the one at the start of the range. -/
theorem C132_ignored_violated :
    urlOpen (fun _ => { status := 200, header := [], pieces := [[1, 2, 3, 4, 5]] }) 3 4 0 [{ pieces := 1 }] =
      .ok (some (3, 4, { pieces := [[1, 2, 3, 4, 5]], paused := true })) := by decide +kernel

/-- **C132, violated** If no connection can be made, opening succeeds and the stream is at its end. -/
theorem C132_no_connection_violated :
    urlOpen (fun _ => { status := 0, header := [], pieces := [] }) 0 0 0 [{ broken := true }] =
      .ok (some (0, 0, { pieces := [], running := false })) := by decide +kernel

/-- **C132, violated** The byte behind a line of the header is read if the line ends in a digit. -/
theorem C132_behind_header_violated : headerCallback (lit "Content-Range: bytes 0-99") 0 0 = .oob := by decide +kernel

/-- A server that honours requests for ranges. -/
def honest (object : List UInt8) : Option (List UInt8) → Answer
  | none => { status := 200, header := [lit "HTTP/1.1 200 OK\r\n"], pieces := [object] }
  | some text =>
    let a := Spec.PathRange.value (text.takeWhile (· != 45))
    let y := (text.dropWhile (· != 45)).tail
    let last := Spec.Url.lastByte object.length (if y = [] then none else some (Spec.PathRange.value y))
    { status := 206,
      header := [lit "HTTP/1.1 206 Partial Content\r\n",
        lit "Content-Range: bytes" ++ [32] ++ num a ++ 45 :: num last ++ 47 :: (num object.length ++ lit "\r\n")],
      pieces := [Spec.Url.slice object a last] }

theorem honest_honours {object : List UInt8} (hl : object.length < 2 ^ 63) : Honours object (honest object) where
  whole := by
    refine ⟨rfl, by simp [honest], ?_⟩
    intro l h
    simp only [honest, List.mem_singleton] at h
    subst h
    unfold Spec.Url.Named
    decide +kernel
  part := by
    intro text a b ⟨x, y, ht, hx, hy⟩ ha hle
    have hne : ∀ c ∈ x, (c != 45) = true := by
      intro c hc
      have := hx.1.1 c hc
      unfold Spec.PathRange.Digit at this
      simp only [bne_iff_ne, ne_eq]
      rintro rfl
      simp at this
    have h1 : text.takeWhile (· != 45) = x := by
      rw [ht, List.takeWhile_append_of_pos hne]; simp
    have h2 : (text.dropWhile (· != 45)).tail = y := by
      rw [ht, List.dropWhile_append_of_pos hne]; simp
    have h3 : (if y = [] then none else some (Spec.PathRange.value y)) = b := by
      cases b with
      | none => simp only at hy; rw [if_pos hy]
      | some n => simp only at hy; rw [if_neg hy.2.1, hy.2.2]
    have hv : Spec.PathRange.value x = a := hx.2.2
    unfold honest
    simp only
    rw [h1, h2, h3, hv]
    refine ⟨trivial, by simp, [lit "HTTP/1.1 206 Partial Content\r\n"], _, [], rfl, ?_, ?_⟩
    · have hlast : Spec.Url.lastByte object.length b < object.length := by
        unfold Spec.Url.lastByte; split <;> omega
      have k1 := num_numeral (n := (a : Int)) (by omega) (by omega)
      have k2 := num_numeral (n := ((Spec.Url.lastByte object.length b : Nat) : Int)) (by omega) (by omega)
      rw [Int.toNat_natCast] at k1 k2
      exact ⟨lit "Content-Range: bytes", [32], _, _, num object.length ++ lit "\r\n", by simp, by decide +kernel, by simp, k1, k2⟩
    · intro l h
      simp only [List.append_nil, List.mem_singleton] at h
      subst h
      unfold Spec.Url.Named
      decide +kernel

example : ∃ stop' c, urlOpen (honest [10, 11, 12, 13, 14]) 1 3 0 [{ pieces := 1 }] = .ok (some (1, stop', c)) ∧
    stop' = 3 ∧ content c = [11, 12, 13] := by
  obtain ⟨s, c, h1, h2⟩ := C132_open_partial (honest_honours (object := [10, 11, 12, 13, 14]) (by decide)) (start := 1) (stop := 3) (first := 0)
    (acts := [{ pieces := 1 }]) (by decide) (by decide) (by decide) (by decide) (by decide)
    (by intro a ha; simp at ha; rw [ha]) (by decide +kernel)
  rw [if_neg (by decide)] at h2
  exact ⟨s, c, h1, h2.1, h2.2⟩

/-- The last byte of the object is the end of a range that goes beyond it; pieces of any sizes. -/
example : urlOpen (fun _ => { status := 206, header := [lit "content-range: bytes 1-3/4\r\n"], pieces := [[11, 12], [13]] }) 1 1000 0
    [{ pieces := 1 }] = .ok (some (1, 3, { pieces := [[11, 12], [13]], paused := true })) := by decide +kernel

example : urlOpen (fun _ => { status := 404, header := [], pieces := [] }) 0 0 0 [{ finish := true }] = .ok none := by decide +kernel

end Verif.Props.Url
