import Verif.Model.KeyExchange
/-!
# `GetEphemeralKeys`

session.go:2125-2127 and 2278-2283: `currentSecrets`, which `setSecrets` replaces with the secrets it is given, next to the
cipher keys (`Verif.KX.setSecrets`). The field is added here to the runs of `Verif.KX`.

What is simplified
* The slice of secrets and the secrets in it are values: `updateSecrets` makes them anew each time
  (key_exchanger.go:325-334), and nothing writes to them afterwards.
* `GetEphemeralKeys` is one step, though it reads the field without the lock (see C93).
-/
namespace Verif.KX

/-- The secrets that a step of `updateSecrets` gives to `setSecretsFunc`, if it does so (key_exchanger.go:336-339). -/
def given (l : List (Option Bytes)) : Option (List (Option Bytes)) :=
  if (l[0]?).join.getD [] = [] then none else some l

/-- The secrets that a step gives to `setSecrets` (session.go:2125, 2073-2081; key_exchanger.go:338): those of `Handle`,
of the loop, or of an answer. -/
def handed (s : State) : Act → Option (List (Option Bytes))
  | .reader =>
    match s.reader with
    | .publish _ l => given l
    | _ => none
  | .main _ _ _ =>
    match s.main with
    | .gen (.publish l) => given l
    | _ => none
  | .answer i _ _ _ =>
    match s.answers[i]? with
    | some (.gen (.publish l)) => given l
    | _ => none
  | _ => none

/-- What a run leaves in `currentSecrets` (session.go:2126-2127). -/
def secretsAfter (cur : List (Option Bytes)) (s : State) (a : Act) : List (Option Bytes) := (handed s a).getD cur

/-- Runs with the field `currentSecrets`, nil at first. -/
inductive EphReach (C : Crypto) (cfg : Cfg) (remote : Option Bytes) : State → List (Option Bytes) → Prop
  | init : EphReach C cfg remote (State.init remote) []
  | step {s s' cur} (a : Act) : EphReach C cfg remote s cur → step C cfg s a = .ok s' →
      EphReach C cfg remote s' (secretsAfter cur s a)

/-- Run, with `currentSecrets`. -/
def runEph (C : Crypto) (cfg : Cfg) : State → List (Option Bytes) → List Act → Outcome Crash (State × List (Option Bytes))
  | s, cur, [] => .ok (s, cur)
  | s, cur, a :: as =>
    match step C cfg s a with
    | .ok s' => runEph C cfg s' (secretsAfter cur s a) as
    | .err e => .err e
    | .panic => .panic
    | .block => .block

/-- `GetEphemeralKeys` (session.go:2281-2283). -/
def getEphemeralKeys (cur : List (Option Bytes)) : List (Option Bytes) := cur

end Verif.KX
