import Verif.Names
/-!
# `lib/logger.c` and `lib/error.c`

Messages of the core. The calls of `printf` and of the functions given by users are effects; a function
given by a user does not call the logger.
-/
namespace Mpp

/-- Function pointers given to `log_add_callback`: `file_callback` (`logger.c:60-67`) or one of a user. -/
inductive LogFn
  | file
  | user (n : Nat)
  deriving DecidableEq, Repr

/-- `Callback` (`logger.c:27-31`); `none` is a null pointer, `udata` an address. -/
structure Callback where
  fn : Option LogFn
  udata : Nat
  level : Int
  deriving DecidableEq, Repr

/-- `L` (`logger.c:33-39`). -/
structure Logger where
  udata : Nat
  lock : Option Nat
  level : Int
  quiet : Bool
  callbacks : List Callback

/-- `MAX_CALLBACKS` (`logger.c:25`). -/
def maxCallbacks : Nat := 32

/-- The static variable before it is used: all zero. -/
def Logger.zero : Logger := ⟨0, none, 0, false, List.replicate maxCallbacks ⟨none, 0, 0⟩⟩

/-- `log_Event` (`logger.h:18-26`); instead of the format and its arguments the formatted text, where
`none` stands for undefined behaviour of `vfprintf`. The time is given separately. -/
structure LogEvent where
  text : Option (List Char)
  file : List Char
  line : Nat
  level : Int

/-- `level_strings[level]` (`logger.c:41`); undefined outside of the array. -/
def levelString (level : Int) : Option (List Char) :=
  if level = 0 then some "TRACE".toList else if level = 1 then some "DEBUG".toList
  else if level = 2 then some "INFO".toList else if level = 3 then some "WARN".toList
  else if level = 4 then some "ERROR".toList else if level = 5 then some "FATAL".toList else none

/-- `%-5s`. -/
def padFive (s : List Char) : List Char := s ++ List.replicate (5 - s.length) ' '

/-- The line written by `stdout_callback` (`logger.c:47-58`, without `LOG_USE_COLOR`) and by
`file_callback` (`logger.c:60-67`); `time` is the result of `strftime`, in two formats. -/
def logLine (time : List Char) (e : LogEvent) : Option (List Char) :=
  match levelString e.level, e.text with
  | some name, some text =>
    some (time ++ " ".toList ++ padFive name ++ " ".toList ++ e.file ++ ":".toList ++ Nat.toDigits 10 e.line ++
      ": ".toList ++ text ++ "\n".toList)
  | _, _ => none

/-- What the logger does to its environment. -/
inductive LogEffect
  /-- a line on `stderr` -/
  | stderr (s : List Char)
  /-- `perror(message)` -/
  | perror (message : Option (List Char))
  /-- a line written to the file with this address -/
  | file (fp : Nat) (s : List Char)
  /-- a call of a user's function with the event and its data -/
  | call (fn : Nat) (udata : Nat) (e : LogEvent)
  /-- `L.lock(on, udata)` -/
  | lock (fn : Nat) (on : Bool) (udata : Nat)
  /-- `exit(EXIT_FAILURE)` -/
  | exit

/-- `lock` and `unlock` (`logger.c:69-79`). -/
def Logger.locking (l : Logger) (on : Bool) : List LogEffect :=
  match l.lock with
  | none => []
  | some f => [.lock f on l.udata]

/-- `log_set_lock` (`logger.c:83-86`). -/
def Logger.setLock (l : Logger) (fn : Option Nat) (udata : Nat) : Logger :=
  { l with lock := fn, udata := udata }

/-- `log_set_level` (`logger.c:88`). -/
def Logger.setLevel (l : Logger) (level : Int) : Logger := { l with level := level }

/-- `log_set_quiet` (`logger.c:90`). -/
def Logger.setQuiet (l : Logger) (enable : Bool) : Logger := { l with quiet := enable }

/-- The loop of `log_add_callback` (`logger.c:93-99`) with `k` iterations left; undefined if it left the
array. -/
def addCallbackLoop (c : Callback) (l : Logger) : Nat → Option (Int × Logger)
  | 0 => some (-1, l)
  | k + 1 =>
    let i := maxCallbacks - (k + 1)
    match l.callbacks[i]? with
    | none => none
    | some d =>
      if d.fn.isNone then some (0, { l with callbacks := l.callbacks.set i c }) else addCallbackLoop c l k

/-- `log_add_callback` (`logger.c:92-100`). -/
def Logger.addCallback (l : Logger) (c : Callback) : Option (Int × Logger) := addCallbackLoop c l maxCallbacks

/-- `log_add_fp` (`logger.c:102`). -/
def Logger.addFp (l : Logger) (fp : Nat) (level : Int) : Option (Int × Logger) :=
  l.addCallback ⟨some .file, fp, level⟩

/-- `cb->fn(&ev)` (`logger.c:140`). -/
def callbackEffect (date : List Char) (e : LogEvent) (udata : Nat) : LogFn → Option LogEffect
  | .file => (logLine date e).map (.file udata ·)
  | .user n => some (.call n udata e)

/-- The loop over the callbacks (`logger.c:135-143`) with `k` iterations left. -/
def callLoop (date : List Char) (e : LogEvent) (cs : List Callback) : Nat → Option (List LogEffect)
  | 0 => some []
  | k + 1 =>
    match cs[maxCallbacks - (k + 1)]? with
    | none => none
    | some c =>
      match c.fn with
      | none => some []
      | some fn =>
        if c.level ≤ e.level then
          match callbackEffect date e c.udata fn with
          | none => none
          | some x => (callLoop date e cs k).map (x :: ·)
        else callLoop date e cs k

/-- `log_log` (`logger.c:112-146`); `debug` says whether `DEBUG` is defined, `time` and `date` are the
current time in the formats of the two kinds of lines. -/
def Logger.log (debug : Bool) (time date : List Char) (l : Logger) (e : LogEvent) : Option (List LogEffect) :=
  if debug = false ∧ e.level ≠ 2 ∧ e.level ≠ 4 then some []
  else
    match (if l.quiet = false ∧ l.level ≤ e.level then (logLine time e).map fun s => [LogEffect.stderr s]
      else some []), callLoop date e l.callbacks maxCallbacks with
    | some own, some called => some (l.locking true ++ own ++ called ++ l.locking false)
    | _, _ => none

/-- `vfprintf(f, fmt, ap)` without arguments: only `%%` is defined. -/
def formatPlain : List Char → Option (List Char)
  | [] => some []
  | '%' :: '%' :: s => (formatPlain s).map ('%' :: ·)
  | '%' :: _ => none
  | c :: s => (formatPlain s).map (c :: ·)

/-- `ErrorType` (`error.h:11-15`). -/
inductive ErrorType
  | none | fatal | notice
  deriving DecidableEq, Repr

/-- `Error` (`error.h:17-21`). -/
structure CError where
  type : ErrorType
  message : Option (List Char)
  showErrno : Nat

/-- `__FILE__` in `error.c`, as the `Makefile` names its sources. -/
def errorFile : List Char := "src/lib/error.c".toList

/-- `err.message == NULL ? "An error ocurred" : err.message` (`error.c:21, 31`). -/
def CError.text (e : CError) : List Char := e.message.getD "An error ocurred".toList

/-- `fatal` (`error.c:17-25`). -/
def fatal (debug : Bool) (time date : List Char) (l : Logger) (e : CError) : Option (List LogEffect) :=
  (if e.showErrno = 1 then some [.perror e.message]
  else l.log debug time date ⟨formatPlain e.text, errorFile, 21, 5⟩).map (· ++ [.exit])

/-- `notice` (`error.c:27-33`). -/
def notice (debug : Bool) (time date : List Char) (l : Logger) (e : CError) : Option (List LogEffect) :=
  if e.showErrno = 1 then some [.perror e.message]
  else l.log debug time date ⟨formatPlain e.text, errorFile, 31, 4⟩

/-- `process_error` and `throw_error` (`error.c:35-51`). -/
def processError (debug : Bool) (time date : List Char) (l : Logger) (e : CError) : Option (List LogEffect) :=
  match e.type with
  | .fatal => fatal debug time date l e
  | .notice => notice debug time date l e
  | .none => some []

/-- The messages of the core (lines as in `Err`). -/
def Err.message : Err → List Char
  | .acummOverflow => "Overflow attemping to load to ACUMM register".toList
  | .gregSelect => "Could not find selected register".toList
  | .gregOverflow => "Overflow attemping to load to a general register".toList
  | .memGet => "Could not get value from memory".toList
  | .memSet => "Could not set value in memory".toList
  | .mxdir => "Couldn't run multiplexer".toList
  | .pchOverflow => "Overflow attemping to load PCH register".toList
  | .pclOverflow => "Overflow attemping to load PCL register".toList
  | .pcOverflow => "Overflow attemping to load PC register".toList
  | .spOverflow => "Overflow attemping to load SP register".toList
  | .riOverflow => "Overflow attemping to load to RI register".toList

/-- The `Error` passed to `throw_error` (lines as in `Err`): always a notice, without `errno`. -/
def Err.error (e : Err) : CError := ⟨.notice, some e.message, 0⟩

/-- What the core has reported when it has thrown `log` (latest first), the `n`-th error at the time
`time n`. -/
def reports (debug : Bool) (time date : Nat → List Char) (l : Logger) : List Err → Option (List LogEffect)
  | [] => some []
  | e :: log =>
    match reports debug time date l log, processError debug (time log.length) (date log.length) l e.error with
    | some xs, some ys => some (xs ++ ys)
    | _, _ => none

/-- The calls of the logger by a user of the core. -/
inductive LogCall
  | setLock (fn : Option Nat) (udata : Nat)
  | setLevel (level : Int)
  | setQuiet (enable : Bool)
  | addCallback (fn : Option LogFn) (udata : Nat) (level : Int)
  | addFp (fp : Nat) (level : Int)

/-- One call: the result (0 for `void`) and the new state. -/
def Logger.call (l : Logger) : LogCall → Option (Int × Logger)
  | .setLock fn udata => some (0, l.setLock fn udata)
  | .setLevel level => some (0, l.setLevel level)
  | .setQuiet enable => some (0, l.setQuiet enable)
  | .addCallback fn udata level => l.addCallback ⟨fn, udata, level⟩
  | .addFp fp level => l.addFp fp level

/-- A sequence of calls. -/
def Logger.calls (l : Logger) : List LogCall → Option (List Int × Logger)
  | [] => some ([], l)
  | c :: cs =>
    match l.call c with
    | none => none
    | some (v, l') => (l'.calls cs).map fun r => (v :: r.1, r.2)

end Mpp
