/-
Removing white space and comments from a JSON text in place: src/common/cJSON.c:2789-2884. The server itself does not call this part of the library.
-/
namespace Verif.CJsonMinify

/-- The loop of `skip_oneline_comment` (src/common/cJSON.c:2793-2799): where the text goes on behind the end of the line; `none` if memory outside the block is read. -/
def skipLine (m : List UInt8) (i : Nat) : Option Nat :=
  if h : i < m.length then
    if m[i] = 0 then some i
    else if m[i] = 10 then some (i + 1)
    else skipLine m (i + 1)
  else none
termination_by m.length - i

/-- The loop of `skip_multiline_comment` (src/common/cJSON.c:2806-2813). -/
def skipBlock (m : List UInt8) (i : Nat) : Option Nat :=
  if h : i < m.length then
    if m[i] = 0 then some i
    else if m[i] = 0x2A then
      match m[i + 1]? with
      | none => none
      | some d => if d = 0x2F then some (i + 2) else skipBlock m (i + 1)
    else skipBlock m (i + 1)
  else none
termination_by m.length - i

/-- Writing a byte; `none` outside the block (src/common/cJSON.c:2817, 2823, 2826, 2831, 2876, 2883). -/
def put (m : List UInt8) (o : Nat) (c : UInt8) : Option (List UInt8) := if o < m.length then some (m.set o c) else none

theorem put_length {m m' : List UInt8} {o : Nat} {c : UInt8} (h : put m o c = some m') : m'.length = m.length := by
  unfold put at h
  split at h
  · cases h; simp
  · cases h

/-- The loop of `minify_string` (src/common/cJSON.c:2822-2835): memory and both pointers afterwards. Reading `(*input)[0]` again after writing `(*output)[0]` gives
the same byte, as the byte written is the one read. -/
def stringLoop (m : List UInt8) (i o : Nat) : Option (List UInt8 × Nat × Nat) :=
  if h : i < m.length then
    if m[i] = 0 then some (m, i, o)
    else
      match h1 : put m o m[i] with
      | none => none
      | some m1 =>
        have := put_length h1
        if m[i] = 0x22 then (put m1 o 0x22).map fun m2 => (m2, i + 1, o + 1)
        else if m[i] = 0x5C then
          match m1[i + 1]? with
          | none => none
          | some d =>
            if d = 0x22 then
              match h2 : put m1 (o + 1) d with
              | none => none
              | some m2 =>
                have := put_length h2
                stringLoop m2 (i + 2) (o + 2)
            else stringLoop m1 (i + 1) (o + 1)
        else stringLoop m1 (i + 1) (o + 1)
  else none
termination_by m.length - i

/-- `minify_string` (src/common/cJSON.c:2816-2836). -/
def minifyString (m : List UInt8) (i o : Nat) : Option (List UInt8 × Nat × Nat) :=
  match m[i]? with
  | none => none
  | some c => (put m o c).bind fun m => stringLoop m (i + 1) (o + 1)

/-- One turn of the loop of `cJSON_Minify` (src/common/cJSON.c:2849-2879) on a byte `c` that is not zero. -/
def turn (m : List UInt8) (i o : Nat) (c : UInt8) : Option (List UInt8 × Nat × Nat) :=
  if c = 0x20 ∨ c = 9 ∨ c = 13 ∨ c = 10 then some (m, i + 1, o)
  else if c = 0x2F then
    match m[i + 1]? with
    | none => none
    | some d =>
      if d = 0x2F then (skipLine m (i + 2)).map fun i => (m, i, o)
      else if d = 0x2A then (skipBlock m (i + 2)).map fun i => (m, i, o)
      else some (m, i + 1, o)
  else if c = 0x22 then minifyString m i o
  else (put m o c).map fun m => (m, i + 1, o + 1)

/-- The loop of `cJSON_Minify` (src/common/cJSON.c:2847-2883), with the zero byte it writes at the end. Every turn moves the first pointer on, so as many turns as there are bytes are
enough; a text without a zero byte ends outside the block. -/
def loop : Nat → List UInt8 → Nat → Nat → Option (List UInt8)
  | 0, _, _, _ => none
  | fuel + 1, m, i, o =>
    match m[i]? with
    | none => none
    | some c =>
      if c = 0 then put m o 0
      else (turn m i o c).bind fun s => loop fuel s.1 s.2.1 s.2.2

/-- `cJSON_Minify` (src/common/cJSON.c:2838-2884) on a block of memory; `none` if memory outside it is touched. -/
def minify (m : List UInt8) : Option (List UInt8) := loop (m.length + 1) m 0 0

end Verif.CJsonMinify
