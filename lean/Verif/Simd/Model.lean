/-
Vector operations.

Models /repo/src/simd/mod.rs, function by function. Bytes are `Nat` (below 256), a vector of 32 bytes is a list of 32
bytes. The AVX2 intrinsics are given by their lane-wise meaning: `cmpeq` compares lane by lane, `movemask_epi8`
collects the top bit of every lane into an `i32` (lane 31 is the sign bit), `sad_epu8` against zero adds groups of
eight bytes. Reads and writes through pointers stay inside the slices by the bounds of the loops (`chunks * 32 ≤ len`)
and are list operations here. Loops over `m` that may not end carry a bound on the number of iterations (`fuel`);
a loop returns if some bound suffices.
-/

namespace Verif.Simd

/-! ### Bit masks -/

/-- The number whose binary digits, lowest first, are the bits. (Masks of /repo/src/simd/mod.rs L35-80.) -/
def natOf : List Bool → Nat
  | [] => 0
  | b :: l => b.toNat + 2 * natOf l

/-- `_mm256_movemask_epi8` of 32 lanes as an `i32`: lane 31 is the sign. /repo/src/simd/mod.rs L50-60. -/
def movemask (bits : List Bool) : Int :=
  if bits[31]? = some true then (natOf bits : Int) - 2 ^ 32 else natOf bits

/-- `while m != 0 { if m & 1 != 0 { positions.push(offset + bit_pos); } m >>= 1; bit_pos += 1; }`
(/repo/src/simd/mod.rs L66-73, L279-286). `>>=` on `i32` is arithmetic. `none`: not finished within `fuel` iterations. -/
def bitLoop : (fuel : Nat) → (m : Int) → (pos : Nat) → List Nat → Option (List Nat)
  | fuel, m, pos, acc =>
    if m = 0 then some acc
    else match fuel with
      | 0 => none
      | fuel + 1 => bitLoop fuel (m / 2) (pos + 1) (if m % 2 = 1 then acc ++ [pos] else acc)

/-! ### json -/

/-- The scalar scan of the remaining bytes (/repo/src/simd/mod.rs L77-82, L290-294). -/
def scanTail (p : Nat → Bool) : (pos : Nat) → List Nat → List Nat
  | _, [] => []
  | pos, b :: l => if p b then pos :: scanTail p (pos + 1) l else scanTail p (pos + 1) l

/-- `chunks` vectors from `offset`, then the remaining bytes (/repo/src/simd/mod.rs L47-83, L268-295). -/
def scanChunks (fuel : Nat) (p : Nat → Bool) : (chunks : Nat) → (offset : Nat) → List Nat → List Nat → Option (List Nat)
  | 0, offset, l, acc => some (acc ++ scanTail p offset l)
  | n + 1, offset, l, acc =>
    match bitLoop fuel (movemask ((l.take 32).map p)) offset acc with
    | none => none
    | some acc => scanChunks fuel p n (offset + 32) (l.drop 32) acc

/-- Space, tab, newline, carriage return (/repo/src/simd/mod.rs L40-43, L79). -/
def isWs (b : Nat) : Bool := b == 0x20 || b == 0x09 || b == 0x0A || b == 0x0D

/-- Backslash and quote (/repo/src/simd/mod.rs L264-265, L291). -/
def isEsc (b : Nat) : Bool := b == 0x5C || b == 0x22

/-- `find_whitespace_simd` (/repo/src/simd/mod.rs L35-86). -/
def findWhitespace (fuel : Nat) (input : List Nat) : Option (List Nat) :=
  scanChunks fuel isWs (input.length / 32) 0 input []

/-- `find_escapes_simd` (/repo/src/simd/mod.rs L260-297). -/
def findEscapes (fuel : Nat) (input : List Nat) : Option (List Nat) :=
  scanChunks fuel isEsc (input.length / 32) 0 input []

/-- `is_valid_continuation_byte` (/repo/src/simd/mod.rs L90-92): `byte & 0xC0 == 0x80`. -/
def isCont (b : Nat) : Bool := b &&& 0xC0 == 0x80

/-- `validate_multibyte_sequence` and its helpers (/repo/src/simd/mod.rs L95-135) on the suffix that begins at `start`. -/
def validMulti : List Nat → Bool
  | [] => false
  | b :: r =>
    if b < 0xC0 then false
    else if b < 0xE0 then match r with
      | c :: _ => isCont c
      | _ => false
    else if b < 0xF0 then match r with
      | c :: d :: _ => isCont c && isCont d
      | _ => false
    else if b < 0xF8 then match r with
      | c :: d :: e :: _ => isCont c && isCont d && isCont e
      | _ => false
    else false

/-- `get_utf8_sequence_length` (/repo/src/simd/mod.rs L182-190). -/
def seqLen (b : Nat) : Nat := if b < 0xE0 then 2 else if b < 0xF0 then 3 else 4

/-- The loop of `validate_chunk_scalar` (/repo/src/simd/mod.rs L156-178) and of `validate_remaining_bytes` (/repo/src/simd/mod.rs L233-252):
`n` is the number of bytes up to `end`, the list the suffix at `i`; bytes the loop jumps over (`i += length`)
are counted by `skip`. -/
def scanUtf8 : (n : Nat) → (skip : Nat) → List Nat → Bool
  | 0, _, _ => true
  | _ + 1, _, [] => true
  | n + 1, skip + 1, _ :: r => scanUtf8 n skip r
  | n + 1, 0, b :: r =>
    if b < 0x80 then scanUtf8 n 0 r
    else if validMulti (b :: r) then scanUtf8 n (seqLen b - 1) r
    else false

/-- `process_simd_chunk` (/repo/src/simd/mod.rs L140-153). The mask has the lanes that are negative as `i8`, that is not ASCII;
it is `-1` if all lanes are. -/
def processChunk (l : List Nat) : Bool :=
  if movemask ((l.take 32).map (fun b => decide (0x80 ≤ b))) = -1 then true else scanUtf8 32 0 l

/-- `validate_utf8_simd` (/repo/src/simd/mod.rs L216-230). -/
def validateChunks : (chunks : Nat) → List Nat → Bool
  | 0, l => scanUtf8 l.length 0 l
  | n + 1, l => if processChunk l then validateChunks n (l.drop 32) else false

/-- `validate_utf8_simd`, /repo/src/simd/mod.rs L216-252. -/
def validateUtf8 (input : List Nat) : Bool := validateChunks (input.length / 32) input

/-! ### serialization -/

/-- `copy_simd` (/repo/src/simd/mod.rs L310-325): whole vectors, then the rest; `none` is the panic of the assertion. -/
def copyChunks : (chunks : Nat) → (src dst : List Nat) → List Nat
  | 0, src, dst => src ++ dst.drop src.length
  | n + 1, src, dst => src.take 32 ++ copyChunks n (src.drop 32) (dst.drop 32)

/-- `copy_simd`, /repo/src/simd/mod.rs L310-328; `none` is the panic of the assertion. -/
def copySimd (src dst : List Nat) : Option (List Nat) :=
  if src.length ≤ dst.length then some (copyChunks (src.length / 32) src dst) else none

/-- The table of `base64_encode_simd` (/repo/src/simd/mod.rs L333-334): "A".."Z", "a".."z", "0".."9", "+", "/". -/
def table64 : List Nat :=
  (List.range 26).map (· + 0x41) ++ (List.range 26).map (· + 0x61) ++ (List.range 10).map (· + 0x30) ++ [0x2B, 0x2F]

/-- `TABLE[i as usize]`; an index out of range (it never is) would panic. /repo/src/simd/mod.rs L332-372. -/
def enc64 (i : Nat) : Nat := table64.getD i 0

/-- `base64_encode_simd` (/repo/src/simd/mod.rs L332-369): groups of three, then the remaining one or two bytes. Appended to
`output`, which is left out. -/
def base64 : List Nat → List Nat
  | b1 :: b2 :: b3 :: r =>
    [enc64 (b1 >>> 2), enc64 (((b1 &&& 0x03) <<< 4) ||| (b2 >>> 4)), enc64 (((b2 &&& 0x0F) <<< 2) ||| (b3 >>> 6)),
      enc64 (b3 &&& 0x3F)] ++ base64 r
  | [b1, b2] =>
    [enc64 (b1 >>> 2), enc64 (((b1 &&& 0x03) <<< 4) ||| (b2 >>> 4)), enc64 ((b2 &&& 0x0F) <<< 2), 0x3D]
  | [b1] => [enc64 (b1 >>> 2), enc64 ((b1 &&& 0x03) <<< 4), 0x3D, 0x3D]
  | [] => []

/-- The mask `[u8; 4]`. /repo/src/simd/mod.rs L377. -/
structure Mask where
  m0 : Nat
  m1 : Nat
  m2 : Nat
  m3 : Nat

/-- Indexing the mask, /repo/src/simd/mod.rs L399-401. -/
def Mask.toList (m : Mask) : List Nat := [m.m0, m.m1, m.m2, m.m3]

/-- `mask_pattern` (/repo/src/simd/mod.rs L381-386): the mask eight times. -/
def Mask.pattern (m : Mask) : List Nat :=
  m.toList ++ m.toList ++ m.toList ++ m.toList ++ m.toList ++ m.toList ++ m.toList ++ m.toList

/-- The scalar loop from index `i` on (/repo/src/simd/mod.rs L399-401). -/
def xorTail (m : Mask) : (i : Nat) → List Nat → List Nat
  | _, [] => []
  | i, b :: l => (b ^^^ (m.toList.getD (i % 4) 0)) :: xorTail m (i + 1) l

/-- `xor_mask_simd` (/repo/src/simd/mod.rs L377-402). -/
def xorChunks (m : Mask) : (chunks : Nat) → (i : Nat) → List Nat → List Nat
  | 0, i, l => xorTail m i l
  | n + 1, i, l => List.zipWith (· ^^^ ·) (l.take 32) m.pattern ++ xorChunks m n (i + 32) (l.drop 32)

/-- `xor_mask_simd`, /repo/src/simd/mod.rs L377-402. -/
def xorMask (data : List Nat) (m : Mask) : List Nat := xorChunks m (data.length / 32) 0 data

/-! ### compression -/

/-- `mask.trailing_ones()` of the comparison with the current byte (/repo/src/simd/mod.rs L424-433). -/
def trailingOnes (bits : List Bool) : Nat := (bits.takeWhile id).length

/-- The scalar loop of `rle_encode_simd` (/repo/src/simd/mod.rs L436-438) on the bytes after the first `count`. -/
def runMore (c : Nat) : (count : Nat) → List Nat → Nat
  | count, [] => count
  | count, b :: l => if count < 255 && b == c then runMore c (count + 1) l else count

/-- The length of the run at the head of the input (/repo/src/simd/mod.rs L420-438). -/
def runLen (c : Nat) (l : List Nat) : Nat :=
  let count := if 32 ≤ l.length then min (trailingOnes ((l.take 32).map (· == c))) 255 else 1
  runMore c count (l.drop count)

/-- `rle_encode_simd` (/repo/src/simd/mod.rs L415-444), at most `fuel` runs (one per byte is enough, `rle`); `count as u8`
keeps the count, which is at most 255. -/
def rleFuel : (fuel : Nat) → List Nat → List Nat
  | 0, _ => []
  | _ + 1, [] => []
  | fuel + 1, c :: l => [runLen c (c :: l) % 256, c] ++ rleFuel fuel ((c :: l).drop (runLen c (c :: l)))

/-- `rle_encode_simd`, /repo/src/simd/mod.rs L415-444. -/
def rle (l : List Nat) : List Nat := rleFuel l.length l

/-- `&haystack[pos..pos + needle.len()] == needle` with the bounds check before it (/repo/src/simd/mod.rs L473-476). -/
def matchAt (h n : List Nat) (pos : Nat) : Bool :=
  decide (pos + n.length ≤ h.length) && (h.drop pos).take n.length == n

/-- The inner loop of `find_pattern_simd` (/repo/src/simd/mod.rs L469-483): `some (some pos)` is `return Some(pos)`, `some
none` the end of the loop, `none` not finished. -/
def patLoop (h n : List Nat) : (fuel : Nat) → (m : Int) → (pos : Nat) → Option (Option Nat)
  | fuel, m, pos =>
    if m = 0 then some none
    else if m % 2 = 1 && matchAt h n pos then some (some pos)
    else match fuel with
      | 0 => none
      | fuel + 1 => patLoop h n fuel (m / 2) (pos + 1)

/-- The first index from `i` on, among `k` indices, at which the needle matches (/repo/src/simd/mod.rs L488-489). -/
def findFrom (h n : List Nat) : (k : Nat) → (i : Nat) → Option Nat
  | 0, _ => none
  | k + 1, i => if (h.drop i).take n.length == n then some i else findFrom h n k (i + 1)

/-- The loop over the vectors of `find_pattern_simd` and the remaining positions (/repo/src/simd/mod.rs L462-489). -/
def patChunks (fuel : Nat) (h n : List Nat) (c : Nat) : (chunks : Nat) → (offset : Nat) → Option (Option Nat)
  | 0, offset => some (findFrom h n (h.length - n.length + 1 - offset) offset)
  | k + 1, offset =>
    match patLoop h n fuel (movemask (((h.drop offset).take 32).map (· == c))) offset with
    | none => none
    | some (some pos) => some (some pos)
    | some none => patChunks fuel h n c k (offset + 32)

/-- `find_pattern_simd` (/repo/src/simd/mod.rs L452-490). -/
def findPattern (fuel : Nat) (h n : List Nat) : Option (Option Nat) :=
  match n with
  | [] => some none
  | c :: _ => if n.length > h.length then some none
    else patChunks fuel h n c ((h.length - n.length + 1) / 32) 0

/-! ### batch -/

/-- A `u32` reinterpreted as `i32`. (/repo/src/simd/mod.rs L503-531.) -/
def toI32 (n : Nat) : Int := if n < 2 ^ 31 then n else (n : Int) - 2 ^ 32

/-- `batch_validate_lengths` (/repo/src/simd/mod.rs L503-527): signed `max > length` in vectors of eight, `length <= max` after
them. -/
def validateChunks8 (max : Nat) : (chunks : Nat) → List Nat → List Bool
  | 0, l => l.map (fun n => decide (n ≤ max))
  | k + 1, l => (l.take 8).map (fun n => decide (toI32 max > toI32 n)) ++ validateChunks8 max k (l.drop 8)

/-- `batch_validate_lengths`, /repo/src/simd/mod.rs L503-531. -/
def batchValidate (lengths : List Nat) (max : Nat) : List Bool := validateChunks8 max (lengths.length / 8) lengths

/-- `_mm256_sad_epu8` against zero and the four `wrapping_add`s (/repo/src/simd/mod.rs L550-559): the sums of the four groups of
eight bytes, each truncated to `u32`. -/
def sadSum (sum : Nat) (l : List Nat) : Nat :=
  ((((sum + (l.take 8).sum % 2 ^ 32) % 2 ^ 32 + ((l.drop 8).take 8).sum % 2 ^ 32) % 2 ^ 32 +
    ((l.drop 16).take 8).sum % 2 ^ 32) % 2 ^ 32 + ((l.drop 24).take 8).sum % 2 ^ 32) % 2 ^ 32

/-- The checksum of one buffer (/repo/src/simd/mod.rs L540-566). -/
def checksumChunks : (chunks : Nat) → (sum : Nat) → List Nat → Nat
  | 0, sum, l => l.foldl (fun s b => (s + b) % 2 ^ 32) sum
  | k + 1, sum, l => checksumChunks k (sadSum sum (l.take 32)) (l.drop 32)

/-- `batch_checksum_simd` on one buffer, /repo/src/simd/mod.rs L535-570. -/
def checksum (buf : List Nat) : Nat := checksumChunks (buf.length / 32) 0 buf

/-- `batch_checksum_simd` (/repo/src/simd/mod.rs L535-569). -/
def batchChecksum (bufs : List (List Nat)) : List Nat := bufs.map checksum

/-! ### fallback -/

/-- `fallback::find_whitespace` and `fallback::find_escapes` (/repo/src/simd/mod.rs L577-599): the indices of the bytes with the
property. -/
def positions (p : Nat → Bool) (input : List Nat) : List Nat :=
  (List.range input.length).filter (fun i => p (input.getD i 0))

end Verif.Simd
