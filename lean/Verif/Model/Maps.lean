/-
Association lists standing for Rust's `BTreeMap` and `HashMap`.
-/

namespace Hmm

/-- Lookup: `BTreeMap::get` / `HashMap::get`. -/
def mapGet {κ α : Type} [DecidableEq κ] (k : κ) : List (κ × α) → Option α
  | [] => none
  | (k', v) :: m => if k' = k then some v else mapGet k m

/-- `remove`. -/
def mapErase {κ α : Type} [DecidableEq κ] (k : κ) : List (κ × α) → List (κ × α)
  | [] => []
  | (k', v) :: m => if k' = k then mapErase k m else (k', v) :: mapErase k m

/-- `HashMap::insert` (order is irrelevant), also the write through `get_mut`: replaces the entry of
`k`, or adds one at the end. -/
def mapSet {κ α : Type} [DecidableEq κ] (k : κ) (v : α) : List (κ × α) → List (κ × α)
  | [] => [(k, v)]
  | (k', v') :: m => if k' = k then (k, v) :: m else (k', v') :: mapSet k v m

/-- `BTreeMap::insert` on an ascending list with natural-number keys. -/
def treeInsert {α : Type} (k : Nat) (v : α) : List (Nat × α) → List (Nat × α)
  | [] => [(k, v)]
  | (k', v') :: m =>
    if k < k' then (k, v) :: (k', v') :: m
    else if k' = k then (k, v) :: m
    else (k', v') :: treeInsert k v m

end Hmm
