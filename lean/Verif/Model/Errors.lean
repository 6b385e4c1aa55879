import Verif.Model.Tracer
import Verif.Model.Package
/-!
# The error objects: their texts and their copies in other processes

`anthunder/exceptions.py`, `anthunder/protocol/exceptions.py`, `anthunder/listener/base_listener.py:116`,
`mysockpool/exceptions.py`. Of Python's exceptions this uses `args`, `str(e)` and how `pickle` copies them.

Simplifications: positional arguments only; every value passed can be pickled and its copy has the same texts; in
`repr` of a string, characters above 160 other than 173 count as printable.
-/
namespace Bolt

/-- The error classes (anthunder/exceptions.py:26-41, protocol/exceptions.py:27-40, base_listener.py:116,
mysockpool/exceptions.py:25-53). -/
inductive ErrCls where
  | pybolt | server | client | noProcessor | protocol | encode | decode | paramType
  | pool | emptyPool | closedPool | location | socketValue
  deriving DecidableEq, Repr

/-- `type(e).__name__` (the same lines as `ErrCls`, anthunder/exceptions.py:26) -/
def ErrCls.name : ErrCls → PyStr
  | .pybolt => py "PyboltError"
  | .server => py "ServerError"
  | .client => py "ClientError"
  | .noProcessor => py "NoProcessorError"
  | .protocol => py "ProtocolError"
  | .encode => py "EncodeError"
  | .decode => py "DecodeError"
  | .paramType => py "ParamTypeError"
  | .pool => py "MysockpoolError"
  | .emptyPool => py "EmptyPoolError"
  | .closedPool => py "ClosedPoolError"
  | .location => py "LocationValueError"
  | .socketValue => py "SocketValueError"

/-- A value passed to a constructor: a string, `None`, or another object (a pool, a caught exception) with its `str` and its
`repr` (connection_pool.py:83, 114; _wait.py:48; _sofa_header.py:110; exceptions.py:34). -/
inductive ErrVal where
  | str (s : PyStr)
  | none
  | obj (str repr : PyStr)
  deriving DecidableEq, Repr

/-- `str(x)`, which `"{}".format(x)` and `"%s" % x` use (anthunder/exceptions.py:32, 36, 41, mysockpool/exceptions.py:30) -/
def ErrVal.text : ErrVal → PyStr
  | .str s => s
  | .none => py "None"
  | .obj s _ => s

/-- one character in `repr` of a string whose quotes are `q` (for mysockpool/exceptions.py:30) -/
def reprChar (q c : Nat) : PyStr :=
  if c = q ∨ c = 92 then [92, c]
  else if c = 10 then py "\\n"
  else if c = 13 then py "\\r"
  else if c = 9 then py "\\t"
  else if c < 32 ∨ (127 ≤ c ∧ c ≤ 160) ∨ c = 173 then py "\\x" ++ [hexDigit (c / 16), hexDigit (c % 16)]
  else [c]

/-- `repr` of a string: in double quotes if it contains single ones only (for mysockpool/exceptions.py:30) -/
def reprStr (s : PyStr) : PyStr :=
  let q := if 39 ∈ s ∧ 34 ∉ s then 34 else 39
  [q] ++ s.flatMap (reprChar q) ++ [q]

/-- `repr(x)` (what `str` of an exception with several arguments uses, mysockpool/exceptions.py:30) -/
def ErrVal.repr : ErrVal → PyStr
  | .str s => reprStr s
  | .none => py "None"
  | .obj _ r => r

/-- An error object: its class, its `args`, where `none` is the object itself, and its attribute `pool` if it has one
(mysockpool/exceptions.py:29-30). -/
structure ErrObj where
  cls : ErrCls
  args : List (Option ErrVal)
  pool : Option ErrVal := .none
  deriving DecidableEq, Repr

/-- `Cls(*args)`; `none` is a TypeError for a wrong number of arguments. `ServerError` and `ClientError` put a prefix before
their only argument (anthunder/exceptions.py:31-32, 40-41). `MysockpoolError` passes itself on as the first of the `args`
(mysockpool/exceptions.py:28-30). The two classes that are a `ValueError` as well have the constructor of that
(mysockpool/exceptions.py:47, 52), which like the others takes any arguments. -/
def ErrCls.make : ErrCls → List ErrVal → Option ErrObj
  | .server, [m] => some { cls := .server, args := [some (.str (py "ServerError: " ++ m.text))] }
  | .server, _ => .none
  | .noProcessor, [m] => some { cls := .noProcessor, args := [some (.str (py "ServerError: " ++ m.text))] }
  | .noProcessor, _ => .none
  | .client, [m] => some { cls := .client, args := [some (.str (py "ClientError: " ++ m.text))] }
  | .client, _ => .none
  | .pool, [p, m] => some { cls := .pool, args := [.none, some (.str (p.text ++ py ": " ++ m.text))], pool := some p }
  | .pool, _ => .none
  | .emptyPool, [p, m] => some { cls := .emptyPool, args := [.none, some (.str (p.text ++ py ": " ++ m.text))], pool := some p }
  | .emptyPool, _ => .none
  | .closedPool, [p, m] => some { cls := .closedPool, args := [.none, some (.str (p.text ++ py ": " ++ m.text))], pool := some p }
  | .closedPool, _ => .none
  | c, args => some { cls := c, args := args.map some }

/-- the name of a status (constants.py:54-66) -/
def RespStatus.name : RespStatus → PyStr
  | .success => py "SUCCESS"
  | .error => py "ERROR"
  | .serverException => py "SERVER_EXCEPTION"
  | .unknown => py "UNKNOWN"
  | .serverThreadpoolBusy => py "SERVER_THREADPOOL_BUSY"
  | .errorComm => py "ERROR_COMM"
  | .noProcessor => py "NO_PROCESSOR"
  | .timeout => py "TIMEOUT"
  | .clientSendError => py "CLIENT_SEND_ERROR"
  | .codecException => py "CODEC_EXCEPTION"
  | .connectionClosed => py "CONNECTION_CLOSED"
  | .serverSerialException => py "SERVER_SERIAL_EXCEPTION"
  | .serverDeserialException => py "SERVER_DESERIAL_EXCEPTION"

/-- `ServerError.from_statuscode` (anthunder/exceptions.py:34-36), called at client.py:140 and aio_client.py:241 -/
def fromStatuscode (st : RespStatus) : Option ErrObj :=
  ErrCls.server.make [.str (py "ServerError: RESPSTATUS=" ++ intStr st.code ++ py ", " ++ st.name)]

/-- one of `args` inside `repr(e.args)`; the object itself is shown as its class with three dots, because `repr` of the same
tuple is going on (mysockpool/exceptions.py:30) -/
def ErrObj.argRepr (e : ErrObj) : Option ErrVal → PyStr
  | .none => e.cls.name ++ py "(...)"
  | some v => v.repr

/-- `str(e)`: nothing, the only argument, or the tuple of the arguments (used at mysockpool/exceptions.py:30,
anthunder/exceptions.py:32 by whoever logs or prints the error, as aio_client.py:247 and aio_listener.py:243 do) -/
def ErrObj.text (e : ErrObj) : PyStr :=
  match e.args with
  | [] => []
  | [.none] => e.argRepr .none
  | [some v] => v.text
  | a :: as => py "(" ++ e.argRepr a ++ (as.flatMap fun x => py ", " ++ e.argRepr x) ++ py ")"

/-- The copy that `pickle` makes, for instance on the way out of a process of a `ProcessPoolExecutor` (performance_aio.py:123):
the class is called again, with two times `None` for the classes of mysockpool (mysockpool/exceptions.py:32-34), with the
`args` for the others. `none` is an exception. -/
def ErrObj.copy (e : ErrObj) : Option ErrObj :=
  match e.cls with
  | .pool | .emptyPool | .closedPool | .location | .socketValue => e.cls.make [.none, .none]
  | c => c.make (e.args.filterMap id)

end Bolt
