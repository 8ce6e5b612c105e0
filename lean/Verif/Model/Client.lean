/-!
# Model of the client of the REPL server (`unpythonic/net/client.py`)

The client of a session, as a machine: what it does depends on the data it receives and on what the user does.  The control channel is in `Model/Control.lean`; here, only what the client
asks for is recorded.  Ctrl+C is modelled at the points where the client waits, for data or for the user; `connect` says itself that elsewhere it may lose text.
-/
namespace Unpy.Client

abbrev Bytes := List UInt8

/-- `s.encode("utf-8")` -/
def encode (s : List Char) : Bytes := s.flatMap String.utf8EncodeChar

/-- `b.decode("utf-8")`; none for UnicodeDecodeError -/
def decode (b : Bytes) : Option (List Char) := b.toByteArray.utf8Decode?.map (·.toList)

inductive Err where
  | unicode
  | assertion
  /-- KeyboardInterrupt -/
  | interrupted
  deriving DecidableEq

/-- What the client does -/
inductive Act where
  /-- `sys.stdout.write` -/
  | shows (s : List Char)
  /-- `input(prompt)` -/
  | asks (prompt : List Char)
  /-- `sock.sendall` -/
  | sends (s : List Char)
  /-- `controller.pair_with_session` -/
  | pairs (id : Nat)
  /-- `controller.send_kbinterrupt` -/
  | interrupts
  /-- "disconnected by server." -/
  | disconnected
  /-- "Session closed." -/
  | closed
  /-- an exception is raised by `connect` -/
  | fails (e : Err)
  deriving DecidableEq

/-- Where the client is -/
inductive Mode where
  /-- it waits for the first line (net/client.py:193-206); the contents of the buffer -/
  | first (buf : Bytes)
  /-- it waits for data (net/client.py:274); the buffer is empty -/
  | reads
  /-- it waits for the user (net/client.py:253); the buffer is empty -/
  | waits
  /-- it gathers data after Ctrl+C (net/client.py:332-337); the contents of the buffer, and whether the first part has come -/
  | gathers (buf : Bytes) (some : Bool)
  /-- `connect` has ended -/
  | over
  deriving DecidableEq

/-- What happens.  Data comes when the client reads from the socket. -/
inductive Ev where
  | data (b : Bytes)
  /-- no data is there (net/client.py:335-336) -/
  | quiet
  | eof
  | line (s : List Char)
  | ctrlD
  | ctrlC
  deriving DecidableEq

/-- `sys.ps1` and `sys.ps2` of the server (net/client.py:166-167) -/
structure Prompts where
  ps1 : List Char
  ps2 : List Char

/-- `text[:-n]` -/
def dropLast (n : Nat) (s : List Char) : List Char := if n = 0 then [] else s.take (s.length - n)

/-- The body of the loop (net/client.py:243-253, 269-272), up to `input` or to the end -/
def process (P : Prompts) (val : Bytes) : List Act × Mode :=
  if (encode P.ps1).isSuffixOf val || (encode P.ps2).isSuffixOf val then
    match decode val with
    | none => ([.fails .unicode], .over)
    | some text =>
      if P.ps1.isSuffixOf text then ([.shows (dropLast P.ps1.length text), .asks P.ps1], .waits)
      else ([.shows (dropLast P.ps2.length text), .asks P.ps2], .waits)
  else match decode val with
    | none => ([.fails .unicode], .over)
    | some text => ([.shows text], .reads)

/-- `s` is at the beginning; the rest -/
def after : List Char → List Char → Option (List Char)
  | [], t => some t
  | _ :: _, [] => none
  | c :: s, d :: t => if c = d then after s t else none

/-- `session (\d+) connected` at the beginning; the digits, and the number of characters.  (Digits other than 0-9 are not modelled.) -/
def matchAt (t : List Char) : Option (List Char × Nat) := match after "session ".toList t with
  | none => none
  | some t => match t.takeWhile Char.isDigit with
    | [] => none
    | ds => match after " connected".toList (t.dropWhile Char.isDigit) with
      | none => none
      | some _ => some (ds, 8 + ds.length + 10)

/-- `re.findall(r"session (\d+) connected", ...)` (net/client.py:199); the first number says how many characters are part of the last match -/
def findall : Nat → List Char → List (List Char)
  | _, [] => []
  | k + 1, _ :: t => findall k t
  | 0, c :: t => match matchAt (c :: t) with
    | none => findall 0 t
    | some (ds, n) => ds :: findall (n - 1) t

/-- `int(ds)` -/
def toInt (ds : List Char) : Nat := ds.foldl (fun n c => 10 * n + (c.toNat - '0'.toNat)) 0

/-- The first line (net/client.py:193-207) -/
def firstLine (P : Prompts) (val : Bytes) : List Act × Mode :=
  if val.contains 10 then
    match decode val with
    | none => ([.fails .unicode], .over)
    | some text => match findall 0 (text.takeWhile (· != '\n')) with
      | [ds] => (.pairs (toInt ds) :: (process P val).1, (process P val).2)
      | _ => ([.fails .assertion], .over)
  else ([], .first val)

/-- One event (net/client.py:203-206, 253-285, 332-343).  What cannot happen is ignored. -/
def step (P : Prompts) : Mode → Ev → List Act × Mode
  | .first val, .data b => firstLine P (val ++ b)
  | .first _, .eof => ([.disconnected, .closed], .over)
  | .first _, .ctrlC => ([.fails .interrupted], .over)
  | .reads, .data b => process P b
  | .reads, .eof => ([.disconnected], .over)
  | .reads, .ctrlC => ([.interrupts, .sends ['\n']], .gathers [] false)
  | .waits, .line s => ([.sends (s ++ ['\n'])], .reads)
  | .waits, .ctrlD => ([.sends "quit()\n".toList, .closed], .over)
  | .waits, .ctrlC => ([.interrupts, .sends ['\n']], .gathers [] false)
  | .gathers val _, .data b => ([], .gathers (val ++ b) true)
  | .gathers val true, .quiet => process P val
  | .gathers _ _, .eof => ([.disconnected], .over)
  | .gathers _ _, .ctrlC => ([.fails .interrupted], .over)
  | m, _ => ([], m)

/-- A session -/
def run (P : Prompts) : Mode → List Ev → List Act × Mode
  | m, [] => ([], m)
  | m, e :: es => ((step P m e).1 ++ (run P (step P m e).2 es).1, (run P (step P m e).2 es).2)

/-- `connect`, when the primary channel has been opened -/
def connect (P : Prompts) (es : List Ev) : List Act × Mode := run P (.first []) es

end Unpy.Client
