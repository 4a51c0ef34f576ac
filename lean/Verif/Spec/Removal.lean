import Verif.Spec.Provenance
/-
Specification vocabulary: the loop closures registered so far, in order of registration, when closures are removed only
by `removeLastLoopClosure()`.
-/

namespace RPGO
variable {G T N : Type} [Mul G] [Inv G] [One G]

namespace Spec

/-- The edge of a factor. -/
def edgeOf (b : Btw G N) : Key × Key := (b.k1, b.k2)

/-- The closures between poses that a call registers: the acceptable candidates of its batch that do not observe a
landmark; `s'` is the state after the call. -/
def newClosures (cfg : Cfg G T N) (op : Op G N) (s' : St G T N) : List (Btw G N) :=
  (opCands cfg op).filter fun b => acceptable cfg s' b && !isLandmark cfg b

/-- The list of closures after one more call. -/
def afterCall (cfg : Cfg G T N) (op : Op G N) (s' : St G T N) (L : List (Btw G N)) : List (Btw G N) :=
  match op with
  | .removeLast => L.dropLast
  | _ => L ++ newClosures cfg op s'

/-- `Chron cfg env h s L`: the calls `h` all returned normally, none of them removes a closure of a given robot pair,
and left state `s`; the closures between poses registered and not removed are `L`, in order of registration. -/
inductive Chron (cfg : Cfg G T N) (env : Env G N) : List (Op G N) → St G T N → List (Btw G N) → Prop where
  | init : Chron cfg env [] St.init []
  | step {h s L op s' r} : Chron cfg env h s L → (∀ p q, op ≠ .removeLastPair p q) → exec cfg env op s = .ok s' r →
      Chron cfg env (h ++ [op]) s' (afterCall cfg op s' L)

/-- `removeLastLoopClosure()` called once per element of `es`, returning these edges (`none` is NULL). -/
inductive RemoveMany (cfg : Cfg G T N) (env : Env G N) : St G T N → List (Option (Key × Key)) → St G T N → Prop where
  | nil {s} : RemoveMany cfg env s [] s
  | cons {s s1 s2 e es} : exec cfg env .removeLast s = .ok s1 (.edge e) → RemoveMany cfg env s1 es s2 →
      RemoveMany cfg env s (e :: es) s2

end Spec
end RPGO
