import Verif.Kvf.Model
/-!
# C92: what the store should do (specification)

The store is a map from (name space, key) to a value, that survives power failures, plus whether the store is
initialised. `Next` says which result a call may have and what the map is afterwards.
-/
namespace Wolf.Kvf

/-- The abstract store. -/
abbrev KV := Nat → List Nat → Option (List Nat)

def upd (M : KV) (ns : Nat) (key : List Nat) (v : Option (List Nat)) : KV := fun n k => if n = ns ∧ k = key then v else M n k

structure V where
  map : KV
  rdy : Bool

/-- A call on the abstract store. -/
def Next (v : V) (op : Op) (r : Res) (v' : V) : Prop :=
  match op with
  | .put ns key blob _ =>
    (v.rdy = false → r = .argErr ∧ v' = v) ∧
    (v.rdy = true →
      (r = .ok ∧ v' = ⟨upd v.map ns key (some blob), true⟩) ∨
      ((r = .full ∨ r = .err) ∧ v' = v) ∨
      (r = .crash ∧ (v' = ⟨v.map, false⟩ ∨ v' = ⟨upd v.map ns key (some blob), false⟩)))
  | .del ns key _ =>
    (v.rdy = false → r = .argErr ∧ v' = v) ∧
    (v.rdy = true →
      (r = .ok ∧ v' = ⟨upd v.map ns key none, true⟩) ∨
      (r = .err ∧ v' = v) ∨
      (r = .crash ∧ (v' = ⟨v.map, false⟩ ∨ v' = ⟨upd v.map ns key none, false⟩)))
  | .boot _ => (r = .ok ∧ v' = ⟨v.map, true⟩) ∨ ((r = .err ∨ r = .crash) ∧ v' = ⟨v.map, false⟩)
  | .get ns key => v' = v ∧ r = if v.rdy then .got (v.map ns key) else .argErr
  | .iter ns => v' = v ∧ (v.rdy = false → r = .argErr) ∧
    (v.rdy = true → ∃ l, r = .pairs l ∧ (l.map Prod.fst).Nodup ∧ ∀ k b, (k, b) ∈ l ↔ v.map ns k = some b)

/-- The results of a whole history are explained by one course of the abstract store. -/
inductive Explains : V → List Op → List Res → V → Prop
  | nil (v : V) : Explains v [] [] v
  | cons {v v1 v2 : V} {op : Op} {ops : List Op} {r : Res} {rs : List Res} (h : Next v op r v1) (t : Explains v1 ops rs v2) : Explains v (op :: ops) (r :: rs) v2

end Wolf.Kvf
