/-!
# Specification of Steim-1 and Steim-2 frames (SEED manual, appendix B)

A frame is 16 four-byte words.  Word 0 holds sixteen 2-bit codes, one per word, the code of word 0
in the high-order bits.  Words hold differences; in the first frame words 1 and 2 hold the first and
the last sample.  `be` is the byte order of the record.
-/
namespace Verif.Spec.Steim

/-- Value of a byte sequence in the given byte order. -/
def num (be : Bool) (b : List UInt8) : Nat :=
  (if be then b else b.reverse).foldl (fun a x => 256 * a + x.toNat) 0

/-- Two's complement value of a `w`-bit field. -/
def signed (w v : Nat) : Int := if v < 2 ^ (w - 1) then v else (v : Int) - 2 ^ w

/-- `n` signed fields of `w` bits in a number, the last one in the low-order bits. -/
def fields (n w word : Nat) : List Int :=
  (List.range n).map fun i => signed w (word / 2 ^ (w * (n - 1 - i)) % 2 ^ w)

/-- The 2-bit code of word `i`. -/
def code (ctrl i : Nat) : Nat := ctrl / 4 ^ (15 - i) % 4

/-- Differences in a Steim-1 word: nothing, four bytes, two 16-bit or one 32-bit integer. -/
def word1 (be : Bool) (c : Nat) (b : List UInt8) : Option (List Int) :=
  match c with
  | 0 => some []
  | 1 => some (b.map fun x => signed 8 x.toNat)
  | 2 => some [signed 16 (num be (b.take 2)), signed 16 (num be (b.drop 2))]
  | _ => some [signed 32 (num be b)]

/-- Differences in a Steim-2 word; codes 2 and 3 use the two high-order bits of the word as a
sub-code, two combinations are undefined. -/
def word2 (be : Bool) (c : Nat) (b : List UInt8) : Option (List Int) :=
  let v := num be b
  match c, v / 2 ^ 30 with
  | 0, _ => some []
  | 1, _ => some (b.map fun x => signed 8 x.toNat)
  | 2, 1 => some (fields 1 30 v)
  | 2, 2 => some (fields 2 15 v)
  | 2, 3 => some (fields 3 10 v)
  | 3, 0 => some (fields 5 6 v)
  | 3, 1 => some (fields 6 5 v)
  | 3, 2 => some (fields 7 4 v)
  | _, _ => none

/-- A frame: 16 words of 4 bytes. -/
abbrev Frame := List (List UInt8)

def word (f : Frame) (i : Nat) : List UInt8 := f.getD i []

/-- The differences of consecutive words, the first of them being word number `i` of its frame. -/
def wordsDiffs (wd : Nat → List UInt8 → Option (List Int)) (ctrl : Nat) :
    Nat → List (List UInt8) → Option (List Int)
  | _, [] => some []
  | i, w :: ws =>
    (wd (code ctrl i) w).bind fun a => (wordsDiffs wd ctrl (i + 1) ws).map (a ++ ·)

/-- All differences of a frame, words `start` to 15. -/
def frameDiffs (wd : Nat → List UInt8 → Option (List Int)) (be : Bool) (start : Nat) (f : Frame) :
    Option (List Int) :=
  wordsDiffs wd (num be (word f 0)) start (f.drop start)

/-- Running sums: the samples after `last`. -/
def integrate : Int → List Int → List Int
  | _, [] => []
  | last, d :: ds => (last + d) :: integrate (last + d) ds

/-- Samples of the frames after the first one, until `need` samples were found.  `none`: an
undefined code in a frame that was needed. -/
def decodeRest (wd : Nat → List UInt8 → Option (List Int)) (be : Bool) :
    Nat → Int → List Frame → Option (List Int)
  | _, _, [] => some []
  | need, last, f :: fs =>
    if need = 0 then some [] else
      (frameDiffs wd be 1 f).bind fun ds =>
        let out := (integrate last ds).take need
        (decodeRest wd be (need - out.length) (out.getLastD last) fs).map (out ++ ·)

/-- The first `need ≥ 1` samples of a sequence of frames.  The first difference of the first frame
refers to the sample before the record and is not used. -/
def decode (wd : Nat → List UInt8 → Option (List Int)) (be : Bool) (need : Nat) :
    List Frame → Option (List Int)
  | [] => some []
  | f :: fs =>
    (frameDiffs wd be 3 f).bind fun ds =>
      let x0 := signed 32 (num be (word f 1))
      let out := x0 :: (integrate x0 (ds.drop 1)).take (need - 1)
      (decodeRest wd be (need - out.length) (out.getLastD x0) fs).map (out ++ ·)

/-- The last-sample word of the first frame. -/
def lastSample (be : Bool) (frames : List Frame) : Int :=
  signed 32 (num be (word (frames.headD []) 2))

/-- A value of a 32-bit signed integer. -/
def isInt32 (x : Int) : Prop := -2147483648 ≤ x ∧ x ≤ 2147483647

instance (x : Int) : Decidable (isInt32 x) := by unfold isInt32; infer_instance

/-- The 64-byte frame number `j` of a buffer, cut into words. -/
def frameAt (bytes : List UInt8) (j : Nat) : Frame :=
  (List.range' 0 16).map fun i => (bytes.drop (64 * j + 4 * i)).take 4

/-- The complete frames of a buffer. -/
def frames (bytes : List UInt8) : List Frame :=
  (List.range' 0 (bytes.length / 64)).map (frameAt bytes)

end Verif.Spec.Steim
