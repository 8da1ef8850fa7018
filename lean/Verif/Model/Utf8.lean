import Verif.Model.Streams
import Verif.Model.World

/-!
# The encoding UTF-8

The codec of CPython (Objects/stringlib/codecs.h, `utf8_encode` and `utf8_decode`), with the error handler `strict`: files opened
with `encoding="utf-8"` (clevercsv/wrappers.py:93, 275, 396, 448, 496; clevercsv/console/commands/standardize.py:207, 222, 256, 286),
which is also the encoding that `write_table` and `write_dicts` use by default on most systems.
-/

namespace Clever

/-- The bytes of a character. -/
def utf8Char (c : Char) : Bytes :=
  let n := c.toNat
  if n < 0x80 then [UInt8.ofNat n]
  else if n < 0x800 then [UInt8.ofNat (0xC0 + n / 64), UInt8.ofNat (0x80 + n % 64)]
  else if n < 0x10000 then [UInt8.ofNat (0xE0 + n / 4096), UInt8.ofNat (0x80 + n / 64 % 64), UInt8.ofNat (0x80 + n % 64)]
  else [UInt8.ofNat (0xF0 + n / 262144), UInt8.ofNat (0x80 + n / 4096 % 64), UInt8.ofNat (0x80 + n / 64 % 64),
    UInt8.ofNat (0x80 + n % 64)]

/-- One byte of the incremental decoder.  The state is 4 a + k, if k bytes are missing and a is the value of the bits before
them.  An error is raised as soon as the bytes cannot be continued to a character: not only for bytes that are no continuation
bytes, but also for encodings that are too long (after `E0` and `F0`), for surrogates (after `ED`), and beyond U+10FFFF
(after `F4`). -/
def utf8Step (s : Nat) (b : UInt8) : Option (Nat × Str) :=
  let n := b.toNat
  let a := s / 4
  let k := s % 4
  if k = 0 then
    if n < 0x80 then some (0, [Char.ofNat n])
    else if n < 0xC2 then none
    else if n < 0xE0 then some (4 * (n - 0xC0) + 1, [])
    else if n < 0xF0 then some (4 * (n - 0xE0) + 2, [])
    else if n < 0xF5 then some (4 * (n - 0xF0) + 3, [])
    else none
  else if n < 0x80 ∨ 0xC0 ≤ n then none
  else if k = 2 ∧ (a = 0 ∧ n < 0xA0 ∨ a = 0xD ∧ 0xA0 ≤ n) then none
  else if k = 3 ∧ (a = 0 ∧ n < 0x90 ∨ a = 4 ∧ 0x90 ≤ n) then none
  else
    let a' := 64 * a + (n - 0x80)
    if k = 1 then some (0, [Char.ofNat a']) else some (4 * a' + (k - 1), [])

/-- The decoder. -/
def utf8Decoder : Decoder where
  step := utf8Step
  atEnd s := s = 0

/-- The codec. -/
def utf8Codec : Codec where
  step s c := some (s, utf8Char c)
  decode := utf8Decoder.whole

end Clever
