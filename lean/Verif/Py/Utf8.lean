import Verif.Py.Basic

/-! # UTF-8 and Latin-1 -/

namespace Warcio

/-- UTF-8 encoding of one character (`str.encode('utf-8')`, statusandheaders.py:166). -/
def utf8Char (c : Char) : Bytes :=
  let n := c.toNat
  if n < 0x80 then [UInt8.ofNat n]
  else if n < 0x800 then [UInt8.ofNat (0xC0 + n / 64), UInt8.ofNat (0x80 + n % 64)]
  else if n < 0x10000 then
    [UInt8.ofNat (0xE0 + n / 4096), UInt8.ofNat (0x80 + n / 64 % 64), UInt8.ofNat (0x80 + n % 64)]
  else
    [UInt8.ofNat (0xF0 + n / 262144), UInt8.ofNat (0x80 + n / 4096 % 64),
     UInt8.ofNat (0x80 + n / 64 % 64), UInt8.ofNat (0x80 + n % 64)]

/-- `s.encode('utf-8')` (statusandheaders.py:166, recordbuilder.py:52). -/
def utf8Encode (s : Str) : Bytes := s.flatMap utf8Char

/-- Continuation byte `10xxxxxx`. -/
def isCont (b : UInt8) : Bool := 0x80 ≤ b.toNat && b.toNat < 0xC0

/-- `b.decode('utf-8')` with strict errors (utils.py:28 as called from
statusandheaders.py:333); `none` is `UnicodeDecodeError`. -/
def utf8Decode : Bytes → Option Str
  | [] => some []
  | a :: t =>
    let n := a.toNat
    if n < 0x80 then (utf8Decode t).map (Char.ofNat n :: ·)
    else
      match t with
      | [] => none
      | b :: t2 =>
        if !isCont b then none
        else if n < 0xC2 then none
        else if n < 0xE0 then
          (utf8Decode t2).map (Char.ofNat ((n - 0xC0) * 64 + (b.toNat - 0x80)) :: ·)
        else
          match t2 with
          | [] => none
          | c :: t3 =>
            if !isCont c then none
            else if n < 0xF0 then
              let v := (n - 0xE0) * 4096 + (b.toNat - 0x80) * 64 + (c.toNat - 0x80)
              if v < 0x800 || (0xD800 ≤ v && v < 0xE000) then none
              else (utf8Decode t3).map (Char.ofNat v :: ·)
            else
              match t3 with
              | [] => none
              | d :: t4 =>
                if !isCont d then none
                else
                  let v := (n - 0xF0) * 262144 + (b.toNat - 0x80) * 4096 + (c.toNat - 0x80) * 64 +
                    (d.toNat - 0x80)
                  if n < 0xF5 && 0x10000 ≤ v && v < 0x110000 then
                    (utf8Decode t4).map (Char.ofNat v :: ·)
                  else none

/-- `b.decode('iso-8859-1')` (statusandheaders.py:336, capture_http.py:209). -/
def latin1Decode (b : Bytes) : Str := b.map (fun x => Char.ofNat x.toNat)

/-- `StatusAndHeadersParser.decode_header` on bytes (statusandheaders.py:329-336). -/
def decodeHeader (b : Bytes) : Str :=
  match utf8Decode b with
  | some s => s
  | none => latin1Decode b

/-- `s.encode('ascii')` (statusandheaders.py:175,179,196). -/
def encodeAscii (s : Str) : Except PyErr Bytes :=
  if isAscii s then .ok (s.map (fun c => UInt8.ofNat c.toNat)) else .error .unicodeEncode

end Warcio
