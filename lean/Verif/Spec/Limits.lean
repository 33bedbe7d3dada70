import Verif.Model.Limits
import Verif.Spec.System
/-!
# What may be observed of a system with limited queues
-/
namespace Verif

/-- The messages client `n` has read in a run with limited queues. -/
def Sys.readCount (K : Codec) (cap : Nat) (n : Bytes) (s : Sys) : List SEv → Nat
  | [] => 0
  | e :: es => (s.cliEvs n e).countP (fun e => match e with | .recv _ _ => true | _ => false) + (s.stepCap K cap e).readCount K cap n es

/-- The requests for which client `n` wants a reply (all but those with `sync='off'`), in a run with limited queues. -/
def Sys.wantCount (K : Codec) (cap : Nat) (n : Bytes) (s : Sys) : List SEv → Nat
  | [] => 0
  | e :: es => ((s.cli n).asked K (s.cliEvs n e)).countP (fun q => decide (0 ≤ q.id)) + (s.stepCap K cap e).wantCount K cap n es

/-- Never more replies are outstanding for a client than fit its queue, counting the news of the server's end as one. -/
def Moderate (K : Codec) (cap : Nat) (s : Sys) (es : List SEv) : Prop :=
  ∀ a b, es = a ++ b → ∀ n, s.wantCount K cap n a + (s.runCap K cap a).srv.closed.toNat ≤ s.readCount K cap n a + cap

/-- A message under way to a client is lost. -/
def SEv.losesDown : SEv → Bool
  | .loseDown _ _ => true
  | _ => false

end Verif
