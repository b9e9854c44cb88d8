import Verif.Model.Messages
import Verif.Model.CommandLine

/-!
# Which messages are printed, and where

Models the messages of `lib/src/private.hpp` (`context::message_type`, `is_loggable`, `emerg` to
`debug`), the priority that `main` and the tuners give to a context, and the output of a run of the
program.  The texts are arguments; their colours (`message_style`) are not modelled.
-/

namespace Bx.Log

/-- `context::message_type` (`private.hpp:52-62`). -/
inductive MessageType where
  | emerg
  | alert
  | crit
  | err
  | warning
  | notice
  | info
  | debug
  deriving DecidableEq, Repr

/-- `static_cast<int>` of a `message_type` (`private.hpp:52-62`): the enumerators count from 0. -/
def MessageType.toInt : MessageType → Int
  | .emerg => 0
  | .alert => 1
  | .crit => 2
  | .err => 3
  | .warning => 4
  | .notice => 5
  | .info => 6
  | .debug => 7

/-- `convert_verbose_level` (`private.hpp:66-69`): the enumerator of `std::clamp(level, 0, 7)`. -/
def convertVerboseLevel (level : Int) : MessageType :=
  if level ≤ 0 then .emerg
  else if level = 1 then .alert
  else if level = 2 then .crit
  else if level = 3 then .err
  else if level = 4 then .warning
  else if level = 5 then .notice
  else if level = 6 then .info
  else .debug

/-- The options of the build, `BARYONYX_ENABLE_LOG` and `BARYONYX_ENABLE_DEBUG`
(`lib/CMakeLists.txt:98-99`). -/
structure Build where
  log : Bool
  debug : Bool

/-- `stdout` and `stderr`. -/
inductive Stream where
  | out
  | err
  deriving DecidableEq, Repr

/-- `is_loggable` (`private.hpp:114-118`). -/
def isLoggable (current : MessageType) (level : Int) : Bool := decide (current.toInt ≥ level)

/-- Where `emerg`, …, `debug` with a format print (`private.hpp:151-264`), for a context with the
priority `p`.  The overloads with one argument or more print at the same place
(`private.hpp:266-405`).  Those with a value instead of a format (`private.hpp:409-523`) are not
called by the library. -/
def printed (b : Build) (p : MessageType) : MessageType → Option Stream
  | .emerg => if b.log && isLoggable p 0 then some .err else none
  | .alert => if b.log && isLoggable p 1 then some .err else none
  | .crit => if b.log && isLoggable p 2 then some .err else none
  | .err => if b.log && isLoggable p 3 then some .err else none
  | .warning => if b.log && isLoggable p 4 then some .err else none
  | .notice => if b.log && isLoggable p 5 then some .out else none
  | .info => if b.log && isLoggable p 6 then some .out else none
  | .debug => if b.log && b.debug && isLoggable p 7 then some .out else none

/-- The level that `main` gives to `make_context` (`app/src/main.cpp:1191-1192`). -/
def verbosity (m : CommandLine.Main) : Int := if m.quiet then 3 else m.verbose

/-- The priority of the context in which the tuners call the optimizer and tell what they do
(`manual-optimizer.cpp:124-125`, `branch-optimizer.cpp:141-142`, `nlopt-optimizer.cpp:96-97`): a copy
of the context of the user, whose priority is then replaced. -/
def tunerPriority (_ : MessageType) : MessageType := .warning

/-- A message of the library, or of `main` and of the functions that it registers, which call
`fmt::print` without a test. -/
inductive Said where
  | library (t : MessageType) (text : String)
  | program (s : Stream) (text : String)

/-- The text of a message on the stream `s`. -/
def Said.text (b : Build) (p : MessageType) (s : Stream) : Said → String
  | .library t x => if printed b p t = some s then x else ""
  | .program s' x => if s' = s then x else ""

/-- What a sequence of messages prints on the stream `s`. -/
def onStream (b : Build) (p : MessageType) (s : Stream) : List Said → String
  | [] => ""
  | m :: l => m.text b p s ++ onStream b p s l

/-- The messages of a run of the program for one file whose solver is started and which ends with the
result `r` (`main.cpp:1219-1290`): the name of the file of the result, the message at the start of the
solver, whose first line is given and whose others are `start` (`main.cpp:64-66`), the message at its
end (`main.cpp:179-228`).  `before`, `prepare` and `during` are the messages of the library; the lines of
`resume` and of the updates are left out. -/
def runOf (t : Messages.Texts) (file start : String) (loop : Int) (d : Rat)
    (before prepare during : List Said) (r : Result) : List Said :=
  before ++ [.program .out ("  - output file: " ++ file ++ "\n")] ++ prepare ++
    [.program .out ("Solver starts\n" ++ start)] ++ during ++
    [.program .out (Messages.finished t loop d r)]

end Bx.Log
