import Verif.Pct.Model

/-!
# URI of an audio file or device

Model of `src/internal_modules/roc_address/io_uri.cpp`, `io_uri_parse.rl`, `io_uri_format.cpp`.

The parser is generated by Ragel from a regular expression with actions. The alternatives of this
expression exclude each other, except that a leading `/` may begin a path or the `//` of a host; in
both cases the beginning of the path is recorded anew. The model is therefore a descent over the
expression, with the actions applied to the part that matched.

Strings are lists of bytes without NUL (`strlen`). Not modelled: failures of memory allocation, the
destination buffer of the formatter (C50), a NULL string, log lines.
-/

namespace Verif.IoUri

open Verif.Pct (Byte ch isAlnum)

/-- A string literal (`io_uri_parse.rl:57`). -/
def str (s : String) : List Byte := s.toList.map ch

/-- Fields of `IoUri` (`io_uri.h:64-65`). -/
structure Uri where
  scheme : List Byte
  path : List Byte
deriving DecidableEq, Repr

/-- `IoUri::is_valid` (`io_uri.cpp:20-22`). -/
def Uri.isValid (u : Uri) : Bool := !u.scheme.isEmpty && !u.path.isEmpty

/-- `IoUri::is_file` (`io_uri.cpp:24-29`). -/
def Uri.isFile (u : Uri) : Bool := u.isValid && decide (u.scheme = str "file")

/-- `IoUri::is_special_file` (`io_uri.cpp:31-36`). -/
def Uri.isSpecialFile (u : Uri) : Bool :=
  u.isValid && decide (u.scheme = str "file") && decide (u.path = str "-")

/-- `IoUri::set_encoded_path` (`io_uri.cpp:65-89`): the path, or nothing when the string is empty
or is not a valid encoding. -/
def setEncodedPath (s : List Byte) : Option (List Byte) :=
  if s.length < 1 then none
  else match Pct.decode s with
    | (true, d) => some d
    | (false, _) => none

/-- `pchar` (`io_uri_parse.rl:72`). -/
def isPchar (c : Byte) : Bool := !(c == ch '?' || c == ch '#')

/-- `abs_path` (`io_uri_parse.rl:76`): a slash, a character that is not a slash, more
characters. -/
def absPath : List Byte → Bool
  | a :: b :: cs => a == ch '/' && isPchar b && b != ch '/' && cs.all isPchar
  | _ => false

/-- `rel_path` (`io_uri_parse.rl:77`). -/
def relPath : List Byte → Bool
  | a :: cs => a != ch '/' && cs.all isPchar
  | _ => false

/-- What is left of `s` after the literal `p`. (Part of the model of roc_address/io_uri_parse.rl:23-125.) -/
def after (p s : List Byte) : Option (List Byte) :=
  if p.isPrefixOf s then some (s.drop p.length) else none

/-- The path of `file_hier_part` (`io_uri_parse.rl:80-82`): the part of the string passed to
`set_path`. -/
def fileHier (s : List Byte) : Option (List Byte) :=
  if absPath s then some s
  else if s = str "-" then some s
  else if relPath s then some s
  else match after (str "//") s with
    | none => none
    | some r =>
      if absPath r then some r
      else if r = str "-" then some r
      else match after (str "localhost") r with
        | none => none
        | some r => if absPath r then some r else none

/-- `device_uri` (`io_uri_parse.rl:86-89`): the scheme and the part passed to `set_path`. -/
def device (s : List Byte) : Option (List Byte × List Byte) :=
  let scheme := s.takeWhile isAlnum
  if scheme.isEmpty || decide (scheme = str "file") then none
  else match after (str "://") (s.dropWhile isAlnum) with
    | none => none
    | some r => if !r.isEmpty && r.all isPchar then some (scheme, r) else none

/-- `parse_io_uri` (`io_uri_parse.rl:23-125`): nothing when the URI is rejected (and cleared). -/
def parse (s : List Byte) : Option Uri :=
  match after (str "file:") s with
  | some r =>
    match fileHier r with
    | none => none
    | some p => match setEncodedPath p with
      | none => none
      | some d => some { scheme := str "file", path := d }
  | none =>
    match device s with
    | none => none
    | some (sc, p) => match setEncodedPath p with
      | none => none
      | some d => some { scheme := sc, path := d }

/-- `format_io_uri` (`io_uri_format.cpp:16-34`), with `IoUri::format_encoded_path`
(`io_uri.cpp:91-96`). -/
def format (u : Uri) : Option (List Byte) :=
  if u.isValid = false then none
  else
    match Pct.encode .nonPath u.path with
    | (true, e) => some (u.scheme ++ (if u.isFile then str ":" else str "://") ++ e)
    | (false, _) => none

end Verif.IoUri
