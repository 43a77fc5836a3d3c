import Verif.Spec.ReadBack
import Verif.Model.TimeUtils
import Verif.Spec.Calendar

/-!
# What is expected of a record that is created from a payload
-/

namespace Warcio

/-- The bytes `b` are an HTTP message with the headers `h` and the body `d`: well-formed headers in
ASCII, and a first word that is known for this type of record. -/
structure Message (recType : Str) (h : StatusAndHeaders) (d b : Bytes) : Prop where
  bytes : b = utf8Encode (headText h.protocol h.statusline h.headers) ++ d
  regular : RegularHttp h
  ascii : isAscii (headText h.protocol h.statusline h.headers) = true
  known : h.protocol ∈ if recType = lit "request" then
      [lit "GET", lit "HEAD", lit "POST", lit "PUT", lit "DELETE", lit "TRACE", lit "OPTIONS", lit "CONNECT", lit "PATCH"]
    else [lit "HTTP/1.0", lit "HTTP/1.1"]

/-- The stream is a seekable file at its start. -/
def AtStart : RecStream FileObj → Prop
  | .own f => f.pos = 0 ∧ f.seekable = true
  | .mem f => f.pos = 0 ∧ f.seekable = true
  | .closed => False

/-- What a file holds for a record: the record itself, or a gzip member with it. -/
def Stored (IsMember : Bytes → Bytes → Prop) (gzip : Bool) (z record : Bytes) : Prop :=
  if gzip then IsMember z record else z = record

/-- `t` is the text of the date: to the second for WARC 1.0, exactly for WARC 1.1. -/
def DateText [PyUni] (version : Str) (now : DateTime) (t : Str) : Prop :=
  (version = lit "WARC/1.0" → isoDateToDatetime t = .ok (toSecond now)) ∧ (version = lit "WARC/1.1" → isoDateToDatetime t = .ok now)

/-- The names of the headers that are set when a record is created. -/
def madeNames : List Str := [lit "WARC-Type", lit "WARC-Record-ID", lit "WARC-Target-URI", lit "WARC-Date", lit "WARC-Payload-Digest"]

/-- `hs` are headers of a new record of this type and URI with the headers `dict` of the caller. -/
structure NewHeaders [PyUni] (version : Str) (env : Env) (uri recType : Str) (dict hs : List (Str × Str)) : Prop where
  type : values (lit "WARC-Type") hs = [recType]
  uri : values (lit "WARC-Target-URI") hs = if uri = [] then values (lit "WARC-Target-URI") dict else [uri]
  id : values (lit "WARC-Record-ID") hs = if values (lit "WARC-Record-ID") dict = [] then [env.newId] else values (lit "WARC-Record-ID") dict
  date : ∃ t, DateText version env.now t ∧
    values (lit "WARC-Date") hs = if values (lit "WARC-Date") dict = [] then [t] else values (lit "WARC-Date") dict
  others : without madeNames hs = without madeNames dict

/-- What the caller may give as headers of a new record: nothing twice that is set, no empty id or
date. -/
structure DictFits [PyUni] (uri : Str) (dict : List (Str × Str)) : Prop where
  type : AtMostOne (lit "WARC-Type") dict
  uri : uri ≠ [] → AtMostOne (lit "WARC-Target-URI") dict
  id : firstValue (lit "WARC-Record-ID") dict ≠ some []
  date : firstValue (lit "WARC-Date") dict ≠ some []
  length : AtMostOne (lit "Content-Length") dict

/-- `hs` are headers in the file of a new record with this block, whose payload is `payload`. -/
structure NewInFile [PyUni] (f : Bytes → Bytes) (version : Str) (env : Env) (uri recType : Str) (dict : List (Str × Str)) (block payload : Bytes)
    (hs : List (Str × Str)) : Prop where
  type : values (lit "WARC-Type") hs = [recType]
  uri : values (lit "WARC-Target-URI") hs = if uri = [] then values (lit "WARC-Target-URI") dict else [uri]
  id : values (lit "WARC-Record-ID") hs = if values (lit "WARC-Record-ID") dict = [] then [env.newId] else values (lit "WARC-Record-ID") dict
  date : ∃ t, DateText version env.now t ∧
    values (lit "WARC-Date") hs = if values (lit "WARC-Date") dict = [] then [t] else values (lit "WARC-Date") dict
  length : values (lit "Content-Length") hs = [intToStr (len block)]
  blockDigest : values (lit "WARC-Block-Digest") dict = [] → values (lit "WARC-Block-Digest") hs = [sha1Text f block]
  payloadDigest : values (lit "WARC-Payload-Digest") dict = [] → values (lit "WARC-Payload-Digest") hs = if recType = lit "warcinfo" then [] else [sha1Text f payload]
  others : without (madeNames ++ ownNames) hs = without (madeNames ++ ownNames) dict

end Warcio
