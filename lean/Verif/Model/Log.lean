/-
The log line formatter: src/common/log.c.
-/
namespace Verif.Log

/-- `LOG_TEXT_LENGTH` (src/common/log.h:9): size of the line buffer. -/
def size : Nat := 512

/-- Effect of `snprintf`/`vsnprintf` at offset `pos` of the buffer, called with `(last - pos) - 1` converted to `size_t`
(src/common/log.c:18, 26): at most that many bytes, the last of them a NUL; `none`: written outside the buffer. A negative argument
converts to a huge size, so everything is written, with the NUL. -/
def printInto (buf : List UInt8) (pos : Nat) (text : List UInt8) : Option (List UInt8) :=
  if pos < size then
    if size - pos - 1 = 0 then some buf
    else
      let w := text.take (size - pos - 2) ++ [0]
      some (buf.take pos ++ w ++ buf.drop (pos + w.length))
  else none

/-- What `log_print` does with the formatted pieces. See src/common/log.c:58-84. -/
inductive Out where
  /-- the bytes passed to `write` -/
  | line (bytes : List UInt8)
  /-- `write` is given `n` bytes from behind the end of the buffer -/
  | overRead (n : Nat)
  | overWrite
deriving DecidableEq, Repr

/-- `log_format_prefix`, `log_format_text` and the `write` calls (src/common/log.c:17-29, 74-81): `pos` advances by what the formatter would have
written, not by what it wrote. `pre` and `text` are the complete formatted strings. Simplification: the formatter does not fail (−1). -/
def line (pre text : List UInt8) : Out :=
  match printInto (List.replicate size 0) 0 pre with
  | none => .overWrite
  | some b1 =>
    match printInto b1 pre.length text with
    | none => .overWrite
    | some b2 =>
      if pre.length + text.length ≤ size then .line (b2.take (pre.length + text.length))
      else .overRead (pre.length + text.length - size)

/-- `enum e_log_level` (src/common/log.h:14-18). -/
inductive Level where
  | error
  | info
  | debug
deriving DecidableEq, Repr

/-- The number of a level (src/common/log.h:15-17). -/
def Level.num : Level → Nat
  | .error => 0
  | .info => 1
  | .debug => 2

/-- `levels[]` (src/common/log.c:11-15). -/
def levels : List String := ["[error]", "[debug]", "[info]"]

/-- The prefix `"%.*s %s <%s:%d> "` (src/common/log.c:18-20). -/
def prefixOf (l : Level) (time func : String) (line : Nat) : String :=
  levels.getD l.num "" ++ " " ++ time ++ " <" ++ func ++ ":" ++ toString line ++ "> "

/-- `level <= config_get()->sys_log_level` (src/common/log.c:62): is the message written at all. -/
def enabled (l : Level) (configured : Nat) : Bool := l.num ≤ configured

/-- `LOG_ID_MAIN`, `LOG_ID_ACCESS` (src/common/log.h). -/
inductive Id where
  | main
  | access
deriving DecidableEq, Repr

/-- Where a line can go: standard output or one of the two files (src/common/log.c:31-56). -/
inductive Sink where
  | stdout
  | main
  | access
deriving DecidableEq, Repr

/-- `log_mgr_t` (src/common/log.c:4-7): the descriptors of the two files; `none` for `log_ctx == NULL`. -/
abbrev Ctx := Option (Int × Int)

/-- The file part of `log_write_file_main`, `log_write_file_access` (src/common/log.c:38-56). -/
def toFile (ctx : Ctx) (id : Id) : List Sink :=
  match ctx, id with
  | none, _ => []
  | some (m, _), .main => if m > 0 then [.main] else []
  | some (_, a), .access => if a > 0 then [.access] else []

/-- `log_print` (src/common/log.c:58-84): the bytes given to `write`, in order, each with its destination; results of `write` are not used. -/
def print (configured : Nat) (ctx : Ctx) (id : Id) (l : Level) (pre text : List UInt8) : List (Sink × Out) :=
  if enabled l configured then (.stdout :: toFile ctx id).map fun s => (s, line pre text) else []

end Verif.Log
