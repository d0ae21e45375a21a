/-
Model of symbol interning under interleaving: `Intern` (`symbol_table_frame.go:49-60`).

Symbol objects have identity: object `k` is the `k`-th that `SymbolWithName` (`data.go:376-378`) made.  The steps of a goroutine
are the two critical sections of `Intern`: the lookup under the read lock (50-52), and, if it found nothing, making the object
and storing it under the write lock (54-57).
-/
namespace Golisp.Intern

/-- A goroutine: the name its current call looked up in vain, the names it will intern, and the results. -/
structure Thread where
  missed : Option String
  todo : List String
  done : List (String × Nat)
deriving DecidableEq, Repr

/-- `internedSymbols.Symbols` (`symbol_table_frame.go:34-37`, 47), the names of the objects made, and the goroutines. -/
structure State where
  table : List (String × Nat)
  made : List String
  threads : List Thread
deriving DecidableEq, Repr

inductive Action where
  | look (i : Nat)
  | insert (i : Nat)
deriving DecidableEq, Repr

/-- The map's lookup: the latest entry counts. -/
def find (m : List (String × Nat)) (n : String) : Option Nat := (m.find? fun e => e.1 = n).map (·.2)

/-- One step, if it is possible. -/
def exec (s : State) : Action → Option State
  | .look i =>
    match s.threads[i]? with
    | some ⟨none, n :: ns, done⟩ =>
      match find s.table n with
      | some k => some { s with threads := s.threads.set i ⟨none, ns, done ++ [(n, k)]⟩ }
      | none => some { s with threads := s.threads.set i ⟨some n, ns, done⟩ }
    | _ => none
  | .insert i =>
    match s.threads[i]? with
    | some ⟨some n, ns, done⟩ =>
      some ⟨(n, s.made.length) :: s.table, s.made ++ [n], s.threads.set i ⟨none, ns, done ++ [(n, s.made.length)]⟩⟩
    | _ => none

/-- Executions all of whose states satisfy `P`. -/
inductive Steps (P : State → Prop) : State → State → Prop where
  | refl {s} : P s → Steps P s s
  | tail {s s' s'' a} : Steps P s s' → exec s' a = some s'' → P s'' → Steps P s s''

/-- Goroutines that are to intern the names given, one after the other. -/
def start (gs : List (List String)) : State := ⟨[], [], gs.map fun g => ⟨none, g, []⟩⟩

end Golisp.Intern

namespace Golisp.Spec
open Intern

/-- Is goroutine `i` between the lookup and the insertion of `n`? -/
def Inserting (s : State) (n : String) (i : Nat) : Prop := ∃ t, s.threads[i]? = some t ∧ t.missed = some n

/-- Did some call give object `k` for `n`? -/
def Gave (s : State) (n : String) (k : Nat) : Prop := ∃ t ∈ s.threads, (n, k) ∈ t.done

end Golisp.Spec
