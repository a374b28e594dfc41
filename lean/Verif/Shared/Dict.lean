import Mathlib.Data.List.Nodup

/-! # Dictionaries as lists of items in insertion order -/

namespace Verif.Shared

/-- `d[k] = v`. -/
def dictPut {α β : Type} [DecidableEq α] : List (α × β) → α → β → List (α × β)
  | [], k, v => [(k, v)]
  | (a, b) :: d, k, v => if a = k then (a, v) :: d else (a, b) :: dictPut d k v

/-- A dictionary comprehension `{k: v for ..}`: later items replace the values of equal keys. -/
def dictOf {α β : Type} [DecidableEq α] (items : List (α × β)) : List (α × β) := items.foldl (fun d x => dictPut d x.1 x.2) []

theorem dictPut_new {α β : Type} [DecidableEq α] {d : List (α × β)} {k : α} (h : k ∉ d.map Prod.fst) (v : β) : dictPut d k v = d ++ [(k, v)] := by
  induction d with
  | nil => rfl
  | cons a d ih =>
    obtain ⟨a1, a2⟩ := a
    simp only [List.map_cons, List.mem_cons, not_or] at h
    simp only [dictPut]
    rw [if_neg (fun e => h.1 e.symm), ih h.2]
    rfl

theorem dictPut_last {α β : Type} [DecidableEq α] {d : List (α × β)} {k : α} (h : k ∉ d.map Prod.fst) (v w : β) :
    dictPut (d ++ [(k, v)]) k w = d ++ [(k, w)] := by
  induction d with
  | nil => simp [dictPut]
  | cons a d ih =>
    obtain ⟨a1, a2⟩ := a
    simp only [List.map_cons, List.mem_cons, not_or] at h
    rw [List.cons_append]
    simp only [dictPut]
    rw [if_neg (fun e => h.1 e.symm), ih h.2]
    rfl

theorem dictPut_lookup {β : Type} {d : List (String × β)} {k : String} (h : k ∉ d.map Prod.fst) (v : β) :
    (d ++ [(k, v)]).lookup k = some v := by
  induction d with
  | nil => simp
  | cons a d ih =>
    obtain ⟨a1, a2⟩ := a
    simp only [List.map_cons, List.mem_cons, not_or] at h
    rw [List.cons_append, List.lookup_cons, show (k == a1) = false from by simpa using h.1]
    exact ih h.2

theorem dictOf_nodup {α β : Type} [DecidableEq α] {items : List (α × β)} (h : (items.map Prod.fst).Nodup) : dictOf items = items := by
  have key : ∀ (l d : List (α × β)), ((d ++ l).map Prod.fst).Nodup → l.foldl (fun d x => dictPut d x.1 x.2) d = d ++ l := by
    intro l
    induction l with
    | nil => intro d _; simp
    | cons x l ih =>
      intro d hd
      have hx : x.1 ∉ d.map Prod.fst := by
        rw [List.map_append, List.map_cons, List.nodup_append] at hd
        intro hm
        exact hd.2.2 _ hm _ (by simp) rfl
      rw [List.foldl_cons, dictPut_new hx, ih _ (by simpa using hd)]
      simp
  simpa [dictOf] using key items [] (by simpa using h)

end Verif.Shared
