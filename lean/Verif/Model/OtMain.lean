import Verif.Model.OT
import Verif.Model.Str
import Verif.Model.Csv

/-!
# The program for a single oblivious transfer (crypto/OT_main.cpp)

The options are given as they are after `boost::program_options` has filled in the defaults; opening the socket, and `--help`, are not
modelled. The programs are processes that start when the connection is open. `.fail` is FAILURE.
-/

namespace TinyGarble

/-- The options that matter once the connection is open (OT_main.cpp:40-64). -/
structure OtOptions where
  message0 : List Char
  message1 : List Char
  select : List Char

/-- Alice (OT_main.cpp:86-116): parse the two messages, then `OTSend` with one pair. The messages are parsed with the connection open. -/
def otMainAlice (o : OtOptions) (co : OTSendCoins) : Proc Unit :=
  match str2Block o.message0 with
  | none => .fail
  | some m0 =>
    match str2Block o.message1 with
    | none => .fail
    | some m1 => otSend (fun _ j => if j = 0 then m0 else m1) 1 co

/-- Bob (OT_main.cpp:117-147): the selection is `atoi(select) == 1`; `OTRecv` with one selection; the result is the selection and the text of the
message that are logged (OT_main.cpp:142-143). `none` if `atoi` is undefined. -/
def otMainBob (o : OtOptions) (rk : Nat → Nat) : Option (Proc (Bool × List Char)) :=
  (atoi o.select).map fun v =>
    (otRecv (fun _ => v == 1) 1 rk).bind fun m => .ret (v == 1, showBlock (m 0))

end TinyGarble
