import Verif.Model.World

/-!
# Scanning a file in blocks: `sha1sum` (clevercsv/utils.py) and `get_encoding` (clevercsv/encoding.py)
-/

namespace Clever

/-- The loop of `sha1sum`, clevercsv/utils.py:46-49: `buf` has just been read, `rest` is what is left in the
file, and `h` is what the hasher has been given.  With fuel for the number of blocks. -/
def sha1Loop (blocksize : Nat) : Nat → Bytes → Bytes → Bytes → Bytes
  | 0, _, _, h => h
  | n + 1, buf, rest, h =>
    if buf.length > 0 then sha1Loop blocksize n (rest.take blocksize) (rest.drop blocksize) (h ++ buf)
    else h

/-- What `sha1sum` hashes, clevercsv/utils.py:43-49. -/
def sha1Input (blocksize : Nat) (b : Bytes) : Bytes :=
  sha1Loop blocksize (b.length + 1) (b.take blocksize) (b.drop blocksize) []

/-- `sha1sum`, clevercsv/utils.py:30-50. -/
def sha1sum (sys : Sys) (p : Path) : Act Str := do
  let b ← openRead sys p
  return sys.sha1 (sha1Input 65536 b)

/-- The loop of `get_encoding`, clevercsv/encoding.py:57-61, with fuel: the detector afterwards, and the
chunks it was fed. -/
def sniffLoop (det : EncDetector) (blk : Nat) : Nat → Bool → Bytes → det.State → det.State × List Bytes
  | 0, _, _, s => (s, [])
  | n + 1, final, rest, s =>
    if !final && !det.done s then
      let chunk := rest.take blk
      let r := sniffLoop det blk n (decide (chunk.length < blk)) (rest.drop blk) (det.feed s chunk)
      (r.1, chunk :: r.2)
    else (s, [])

/-- The detector after the loop, and the chunks it was fed. -/
def sniffRun (det : EncDetector) (blk : Nat) (b : Bytes) : det.State × List Bytes :=
  sniffLoop det blk (b.length + 2) false b det.init

/-- `get_encoding`, clevercsv/encoding.py:20-64. -/
def getEncoding (sys : Sys) (p : Path) : Act (Option Str) := do
  let b ← openRead sys p
  return sys.sniffer.result (sniffRun sys.sniffer 65536 b).1

end Clever
