import Verif.Model.Proxy
/-!
# What reading a message prints

`process_msg` formats every message it gets, whatever the level of the logger: `logger.debug("    => %s" % msg)`, /repo/teleprox/client.py:547. A received proxy without
`safe_print` is printed by asking its server, /repo/teleprox/proxy.py:241-247.
-/
namespace Verif

mutual
/-- The proxies in a message in the order in which `repr` comes to them; /repo/teleprox/client.py:547. Simplification: objects of the reader's own process (`obj`) and instances of
subclasses are printed without proxies. -/
def Val.printed : Val → List Proxy
  | .proxy p => [p]
  | .list l => printedL l
  | .tuple l => printedL l
  | .dict d => printedD d
  | _ => []

/-- Items; /repo/teleprox/client.py:547. -/
def printedL : List Val → List Proxy
  | [] => []
  | v :: r => v.printed ++ printedL r

/-- Entries, keys before values; /repo/teleprox/client.py:547. -/
def printedD : List (Val × Val) → List Proxy
  | [] => []
  | (k, v) :: r => k.printed ++ (v.printed ++ printedD r)
end

/-- The request made to print a received proxy, if any; `dflt` is `default_proxy_options` of the client. /repo/teleprox/proxy.py:241-247, /repo/teleprox/serializer.py:188-190. -/
def printAsks (dflt : Dict String Val) (x : Proxy) : List ProxyReq :=
  match PObj.received x dflt with
  | .ok p =>
    match p.repr with
    | .asks r => [r]
    | _ => []
  | .error _ => []

/-- The requests made to print a message, in order; /repo/teleprox/client.py:547. -/
def Val.printAsks (dflt : Dict String Val) (msg : Val) : List ProxyReq := msg.printed.flatMap (Verif.printAsks dflt)

/-- What happens during such a request: what this client does in it (the request itself and messages read while waiting), and how the request ends. /repo/teleprox/proxy.py:245. -/
structure Asking where
  evs : List CEv
  outcome : Except Exc Unit

/-- `"    => %s" % msg`: the requests are made one after the other, the first exception ends it. /repo/teleprox/client.py:547. -/
def Cli.printMsg (K : Codec) (n : ProxyReq → Asking) (c : Cli) : List ProxyReq → Cli × Except Exc Unit
  | [] => (c, .ok ())
  | r :: rs =>
    match (n r).outcome with
    | .error e => ((c.run K (n r).evs).1, .error e)
    | .ok () => (c.run K (n r).evs).1.printMsg K n rs

/-- `process_msg` with its log call; /repo/teleprox/client.py:545-561. -/
def Cli.processPrinted (K : Codec) (P : CliEnv) (dflt : Dict String Val) (n : ProxyReq → Asking) (c : Cli) (msg : Val) : Cli × Except Exc Unit :=
  match msg with
  | .dict _ =>
    match c.printMsg K n (msg.printAsks dflt) with
    | (c, .error e) => (c, .error e)
    | (c, .ok ()) => c.processMsg P msg
  | _ => (c, .error .attributeError)

end Verif
