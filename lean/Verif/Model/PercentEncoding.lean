import Verif.Model.Basic

/-
util/percent_encoding.rs and the parts of the external `percent-encoding` crate it uses.
-/

namespace OAuth

/-- util/percent_encoding.rs l.21 `ENCODE_MAP`. -/
def encodeMap : List Nat := [0xFFFFFFFF, 0xFC009FFF, 0x78000001, 0xB8000001]

/-- util/percent_encoding.rs l.113-117 `get_bit`. `bits[i / 32]` panics when out of bounds: `none`. -/
def getBit (bits : List Nat) (i : Nat) : Option Bool :=
  match bits[i / 32]? with
  | none => none
  | some block => some (block &&& (1 <<< (i % 32)) != 0)

/-- util/percent_encoding.rs l.109-111 `should_percent_encode`; `none` if `get_bit` panics. -/
def shouldPercentEncode (b : UInt8) : Option Bool :=
  if 0x80 ≤ b.toNat then some true else getBit encodeMap b.toNat

/-- util/percent_encoding.rs l.87-104 `ENCODE`, the 1280-byte table, row by row as in the source. -/
def encodeTable : Bytes :=
  b!"%2500%2501%2502%2503%2504%2505%2506%2507%2508%2509%250A%250B%250C%250D%250E%250F" ++
  b!"%2510%2511%2512%2513%2514%2515%2516%2517%2518%2519%251A%251B%251C%251D%251E%251F" ++
  b!"%2520%2521%2522%2523%2524%2525%2526%2527%2528%2529%252A%252B%252C%252D%252E%252F" ++
  b!"%2530%2531%2532%2533%2534%2535%2536%2537%2538%2539%253A%253B%253C%253D%253E%253F" ++
  b!"%2540%2541%2542%2543%2544%2545%2546%2547%2548%2549%254A%254B%254C%254D%254E%254F" ++
  b!"%2550%2551%2552%2553%2554%2555%2556%2557%2558%2559%255A%255B%255C%255D%255E%255F" ++
  b!"%2560%2561%2562%2563%2564%2565%2566%2567%2568%2569%256A%256B%256C%256D%256E%256F" ++
  b!"%2570%2571%2572%2573%2574%2575%2576%2577%2578%2579%257A%257B%257C%257D%257E%257F" ++
  b!"%2580%2581%2582%2583%2584%2585%2586%2587%2588%2589%258A%258B%258C%258D%258E%258F" ++
  b!"%2590%2591%2592%2593%2594%2595%2596%2597%2598%2599%259A%259B%259C%259D%259E%259F" ++
  b!"%25A0%25A1%25A2%25A3%25A4%25A5%25A6%25A7%25A8%25A9%25AA%25AB%25AC%25AD%25AE%25AF" ++
  b!"%25B0%25B1%25B2%25B3%25B4%25B5%25B6%25B7%25B8%25B9%25BA%25BB%25BC%25BD%25BE%25BF" ++
  b!"%25C0%25C1%25C2%25C3%25C4%25C5%25C6%25C7%25C8%25C9%25CA%25CB%25CC%25CD%25CE%25CF" ++
  b!"%25D0%25D1%25D2%25D3%25D4%25D5%25D6%25D7%25D8%25D9%25DA%25DB%25DC%25DD%25DE%25DF" ++
  b!"%25E0%25E1%25E2%25E3%25E4%25E5%25E6%25E7%25E8%25E9%25EA%25EB%25EC%25ED%25EE%25EF" ++
  b!"%25F0%25F1%25F2%25F3%25F4%25F5%25F6%25F7%25F8%25F9%25FA%25FB%25FC%25FD%25FE%25FF"

/-- `str::from_utf8_unchecked(s)` where the crate relies on `s` being ASCII: writing it is undefined
behaviour otherwise (the model is stricter than Rust, which only needs UTF-8). -/
def unchecked (s : Bytes) : Display :=
  if s.all (fun b => b.toNat < 0x80) then .ofBytes s
  else { chunks := [], outcome := .panic .undefinedBehaviour }

/-- `debug_assert!(s.is_ascii())` before an unchecked conversion (l.52-53, l.57-58). -/
def assertedUnchecked (cfg : Cfg) (s : Bytes) : Display :=
  if cfg.debug && !(s.all (fun b => b.toNat < 0x80)) then
    { chunks := [], outcome := .panic .notAscii }
  else unchecked s

/-- util/percent_encoding.rs l.86-107 `double_encode_byte`, written out. The slice
`&ENCODE[b*5..(b+1)*5]` panics when out of bounds. -/
def doubleEncodeByte (b : UInt8) : Display :=
  let i := b.toNat
  if (i + 1) * 5 ≤ encodeTable.length then
    unchecked ((encodeTable.drop (i * 5)).take 5)
  else { chunks := [], outcome := .panic .outOfBounds }

/-- util/percent_encoding.rs l.44-48: the index and value of the first byte at or after position `i`
that must be encoded (`none` inside if `should_percent_encode` panics). -/
def findEncode : Nat → Bytes → Option (Option (Nat × UInt8))
  | _, [] => some none
  | i, b :: bs => match shouldPercentEncode b with
    | none => none
    | some true => some (some (i, b))
    | some false => findEncode (i + 1) bs

/-- util/percent_encoding.rs l.34-63 `Adapter::write_str` of `DoublePercentEncode`: the `while let`
loop, one iteration per unit of fuel. -/
def doubleLoop (cfg : Cfg) : Nat → Bytes → Display
  | _, [] => { chunks := [] }
  | 0, _ :: _ => { chunks := [], outcome := .panic .fuel }
  | fuel + 1, b :: rem =>
    match shouldPercentEncode b with
    | none => { chunks := [], outcome := .panic .outOfBounds }
    | some true => doubleEncodeByte b ++ doubleLoop cfg fuel rem
    | some false =>
      match findEncode 1 rem with
      | none => { chunks := [], outcome := .panic .outOfBounds }
      | some (some (i, b')) =>
        let rem' := (b :: rem).drop (i + 1)
        let s := (b :: rem).take i
        assertedUnchecked cfg s ++ (doubleEncodeByte b' ++ doubleLoop cfg fuel rem')
      | some none => assertedUnchecked cfg (b :: rem)

/-- Runs `f` on each fragment, as an `Adapter` whose `write_str` is `f`, then ends like `out`. -/
def adapt (f : Bytes → Display) (out : Outcome) : List Bytes → Display
  | [] => { chunks := [], outcome := out }
  | c :: cs => f c ++ adapt f out cs

/-- util/percent_encoding.rs l.29-68 `Display for DoublePercentEncode<D>`. -/
def doublePercentEncode (cfg : Cfg) (d : Display) : Display :=
  adapt (fun c => doubleLoop cfg c.length c) d.outcome d.chunks

/-- External crate `percent-encoding`: `NON_ALPHANUMERIC` (all ASCII bytes except letters and
digits). -/
def nonAlphanumeric (b : UInt8) : Bool :=
  b.toNat < 0x80 &&
    !((0x30 ≤ b.toNat && b.toNat ≤ 0x39) || (0x41 ≤ b.toNat && b.toNat ≤ 0x5A) ||
      (0x61 ≤ b.toNat && b.toNat ≤ 0x7A))

/-- util/percent_encoding.rs l.23-27 `RESERVED` as an `AsciiSet`. -/
def reservedContains (b : UInt8) : Bool :=
  nonAlphanumeric b && b != 0x2D && b != 0x2E && b != 0x5F && b != 0x7E

/-- External crate `percent-encoding`: `AsciiSet::should_percent_encode`. -/
def asciiSetShouldEncode (b : UInt8) : Bool := 0x80 ≤ b.toNat || reservedContains b

/-- External crate `percent-encoding`: upper-case hexadecimal digit. -/
def hexDigit (n : Nat) : UInt8 := UInt8.ofNat (if n < 10 then 48 + n else 55 + n)

/-- External crate `percent-encoding`: `percent_encode_byte`, "%XX". -/
def percentEncodeByte (b : UInt8) : Bytes := [0x25, hexDigit (b.toNat / 16), hexDigit (b.toNat % 16)]

/-- External crate `percent-encoding`: the chunk iterator of `PercentEncode`. A chunk is one encoded
byte or a maximal run of bytes that need no encoding. -/
def encodeChunks : Nat → Bytes → List Bytes
  | _, [] => []
  | 0, _ :: _ => []
  | fuel + 1, b :: rem =>
    if asciiSetShouldEncode b then percentEncodeByte b :: encodeChunks fuel rem
    else
      let run := rem.takeWhile (fun c => !asciiSetShouldEncode c)
      (b :: run) :: encodeChunks fuel (rem.drop run.length)

/-- util/percent_encoding.rs l.82-84 `percent_encode(input)` as a `Display` value. -/
def percentEncodeStr (s : Bytes) : Display := { chunks := encodeChunks s.length s }

/-- util/percent_encoding.rs l.70-80 `Display for PercentEncode<D>`. -/
def percentEncode (d : Display) : Display := adapt percentEncodeStr d.outcome d.chunks

end OAuth
