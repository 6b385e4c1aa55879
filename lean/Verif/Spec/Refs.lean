import Verif.Model.Refs
/-!
# Spec: what the program can still use

An object can be used as long as a variable refers to it or to an object from which it can be reached.
-/
namespace Bolt.Spec

inductive Usable (s : RSt) : Nat → Prop where
  | var {o} : o ∈ s.vars → Usable s o
  | ref {x a o} : Usable s x → s.objs[x]? = some a → o ∈ a.refs → Usable s o

end Bolt.Spec
