import Verif.Lemmas.Ast

/-!
# C09, C10: the traversals

Specification: the place of a contained expression is the list of child indices that leads to it.
-/

namespace PP.Props
open PP.Expr

/-- The expression at a place. -/
def nodeAt (e : Expr) : List Nat → Option Expr
  | [] => some e
  | i :: is => match e.kids[i]? with
    | some k => nodeAt k is
    | none => none

/-- The containers of the expression at a place, outermost first. (As in the code, a plan shows up as
the function definition it embeds, see `Expr.receiver`.) -/
def ancestors (e : Expr) : List Nat → List Expr
  | [] => []
  | i :: is => match e.kids[i]? with
    | some k => e.receiver :: ancestors k is
    | none => []

/-- `as` enumerates the places of the proper descendants of `e`, each once, in document order: the
lexicographic order puts a container before its contents and siblings from left to right. -/
def EnumeratesDescendants (e : Expr) (as : List (List Nat)) : Prop :=
  as.Pairwise (· < ·) ∧ ∀ a, a ∈ as ↔ a ≠ [] ∧ (nodeAt e a).isSome

/-- The calls of the visitor that visit the places `as`. -/
def visits (path : List Expr) (e : Expr) (as : List (List Nat)) : List (List Expr × Option Expr) :=
  as.map fun a => (path ++ ancestors e a, nodeAt e a)

private def spec (e : Expr) : Prop :=
  ∃ as, EnumeratesDescendants e as ∧
    ∀ path, (allContents path e).map (fun c => (c.1, some c.2)) = visits path e as

/-- Children `ks` that start at index `n`. -/
private theorem kidsSpec (ks : List Expr) (h : ∀ k ∈ ks, spec k) (n : Nat) :
    ∃ as : List (List Nat), as.Pairwise (· < ·) ∧
      (∀ a, a ∈ as ↔ ∃ i is k, a = (n + i) :: is ∧ ks[i]? = some k ∧ (nodeAt k is).isSome) ∧
      ∀ cp, ((ks.flatMap fun k => (cp, k) :: allContents cp k).map fun c => (c.1, some c.2)) =
        as.map fun a => match a with
          | [] => (cp, none)
          | j :: is => match ks[j - n]? with
            | some k => (cp ++ ancestors k is, nodeAt k is)
            | none => (cp, none) := by
  induction ks generalizing n with
  | nil => exact ⟨[], List.Pairwise.nil, by simp, by simp⟩
  | cons k ks ih =>
    obtain ⟨ak, ⟨hs, hm⟩, hv⟩ := h k (List.mem_cons_self ..)
    obtain ⟨as, hs', hm', hv'⟩ := ih (fun x hx => h x (List.mem_cons_of_mem _ hx)) (n + 1)
    refine ⟨(([] :: ak).map (n :: ·)) ++ as, ?_, ?_, ?_⟩
    · rw [List.pairwise_append]
      refine ⟨?_, hs', ?_⟩
      · rw [List.pairwise_map, List.pairwise_cons]
        constructor
        · intro a ha
          have := ((hm a).1 ha).1
          cases a with
          | nil => exact absurd rfl this
          | cons x xs => simp
        · exact hs.imp fun h => by simp [h]
      · intro a ha b hb
        obtain ⟨x, -, rfl⟩ := List.mem_map.1 ha
        obtain ⟨i, is, k', rfl, -, -⟩ := (hm' b).1 hb
        exact List.cons_lt_cons_iff.2 (Or.inl (by omega))
    · intro a
      rw [List.mem_append, List.mem_map, hm']
      constructor
      · rintro (⟨x, hx, rfl⟩ | ⟨i, is, k', rfl, h1, h2⟩)
        · refine ⟨0, x, k, rfl, rfl, ?_⟩
          rcases List.mem_cons.1 hx with rfl | hx
          · rfl
          · exact ((hm x).1 hx).2
        · exact ⟨i + 1, is, k', by congr 1; omega, by simpa using h1, h2⟩
      · rintro ⟨i, is, k', rfl, h1, h2⟩
        cases i with
        | zero =>
          simp at h1; subst h1
          refine Or.inl ⟨is, ?_, rfl⟩
          cases is with
          | nil => exact List.mem_cons_self ..
          | cons x xs => exact List.mem_cons_of_mem _ ((hm _).2 ⟨by simp, h2⟩)
        | succ i => exact Or.inr ⟨i, is, k', by congr 1; omega, by simpa using h1, h2⟩
    · intro cp
      rw [List.flatMap_cons, List.map_append, hv', List.map_append]
      congr 1
      · simp only [List.map_cons, List.map_map]
        rw [hv cp]
        simp [visits, nodeAt, ancestors]
      · apply List.map_congr_left
        intro a ha
        obtain ⟨i, is, k', rfl, h1, h2⟩ := (hm' a).1 ha
        have e1 : n + 1 + i - (n + 1) = i := by omega
        have e2 : n + 1 + i - n = i + 1 := by omega
        simp only [e1, e2, List.getElem?_cons_succ, h1]

private theorem allSpec (e : Expr) : spec e := by
  induction e using kidsInduction with
  | step e ih =>
    obtain ⟨as, hs, hm, hv⟩ := kidsSpec e.kids ih 0
    refine ⟨as, ⟨hs, ?_⟩, ?_⟩
    · intro a
      rw [hm]
      constructor
      · rintro ⟨i, is, k, rfl, h1, h2⟩
        refine ⟨by simp, ?_⟩
        simp [nodeAt, h1, h2]
      · rintro ⟨h1, h2⟩
        cases a with
        | nil => exact absurd rfl h1
        | cons i is =>
          cases h : e.kids[i]? with
          | none => simp [nodeAt, h] at h2
          | some k => exact ⟨i, is, k, by simp, h, by simpa [nodeAt, h] using h2⟩
    · intro path
      rw [allContents_eq, hv, visits]
      apply List.map_congr_left
      intro a ha
      obtain ⟨i, is, k, rfl, h1, h2⟩ := (hm a).1 ha
      simp [h1, ancestors, nodeAt]

/-- C09: `AllContents` calls the visitor for every proper descendant exactly once, in document order,
with its containers as path. -/
theorem C09_allContents_visits_each_descendant_once (path : List Expr) (e : Expr) :
    ∃ as, EnumeratesDescendants e as ∧
      (allContents path e).map (fun c => (c.1, some c.2)) = visits path e as := by
  obtain ⟨as, h, hv⟩ := allSpec e
  exact ⟨as, h, hv path⟩

/-- C09: the number of visits is the number of descendants: the enumeration is unique. -/
theorem C09_enumeration_unique (e : Expr) (as bs : List (List Nat))
    (ha : EnumeratesDescendants e as) (hb : EnumeratesDescendants e bs) : as = bs := by
  have hperm : as.Perm bs := by
    refine (List.perm_ext_iff_of_nodup ?_ ?_).2 fun a => (ha.2 a).trans (hb.2 a).symm
    · exact ha.1.imp fun h e => by subst e; exact (List.lt_irrefl _ h)
    · exact hb.1.imp fun h e => by subst e; exact (List.lt_irrefl _ h)
  exact hperm.eq_of_pairwise (le := (· < ·))
    (fun a b _ _ h1 h2 => absurd (List.lt_trans h1 h2) (List.lt_irrefl _)) ha.1 hb.1

/-- C10: `Contents` calls the visitor for the direct children, in order, with the path extended by the
expression: these are the visits of `AllContents` to places of length one. -/
theorem C10_contents_is_one_level (path : List Expr) (e : Expr) :
    (contents path e).map (fun c => (c.1, some c.2)) =
      visits path e ((List.range e.kids.length).map fun i => [i]) := by
  simp only [contents, visits, List.map_map]
  apply List.ext_getElem
  · simp
  · intro i h1 h2
    have : i < e.kids.length := by simpa using h1
    simp [nodeAt, ancestors, this]

/-- C10: `Contents` is `AllContents` with the visits to deeper places left out. -/
theorem C10_contents_is_filtered_allContents (path : List Expr) (e : Expr) :
    ((allContents path e).filter fun c => c.1.length == path.length + 1) = contents path e := by
  have deep : ∀ (e : Expr) (p : List Expr), ∀ c ∈ allContents p e, p.length + 1 ≤ c.1.length := by
    intro e
    induction e using kidsInduction with
    | step e ih =>
      intro p c hc
      rw [allContents_eq] at hc
      obtain ⟨k, hk, hc⟩ := List.mem_flatMap.1 hc
      rcases List.mem_cons.1 hc with rfl | hc
      · simp
      · have := ih k hk _ c hc
        simp at this
        omega
  rw [allContents_eq, contents]
  induction e.kids with
  | nil => rfl
  | cons k ks ih =>
    rw [List.flatMap_cons, List.filter_append, ih, List.map_cons, List.filter_cons]
    simp only [List.length_append, List.length_cons, List.length_nil, Nat.zero_add, beq_self_eq_true, if_true]
    rw [List.filter_eq_nil_iff.2]
    · rfl
    · intro c hc
      have := deep k _ c hc
      simp only [List.length_append, List.length_cons, List.length_nil, beq_iff_eq] at this ⊢
      omega

/-- The theorems on a concrete tree `[-$x, {1 => 2}]`: its seven descendants in document order. -/
def sample : Expr :=
  .list ⟨0, 14⟩ [.un ⟨1, 3⟩ .minus (.un ⟨2, 2⟩ .variable (.qname ⟨2, 2⟩ b!"x")),
    .hash ⟨6, 8⟩ [.keyedEntry ⟨7, 6⟩ (.integer ⟨7, 1⟩ 10 1) (.integer ⟨12, 1⟩ 10 2)]]

example : EnumeratesDescendants sample [[0], [0, 0], [0, 0, 0], [1], [1, 0], [1, 0, 0], [1, 0, 1]] ∧
    (allContents [] sample).length = 7 := by
  refine ⟨?_, by simp [sample, allContents, deepVisitList]⟩
  refine ⟨by decide, fun a => ?_⟩
  constructor
  · intro ha
    simp only [List.mem_cons, List.not_mem_nil, or_false] at ha
    rcases ha with rfl | rfl | rfl | rfl | rfl | rfl | rfl <;> exact ⟨by simp, rfl⟩
  · rintro ⟨h1, h2⟩
    rcases a with _ | ⟨i, _ | ⟨j, _ | ⟨k, _ | ⟨l, t⟩⟩⟩⟩
    · exact absurd rfl h1
    all_goals
      rcases i with _ | _ | i <;> simp [nodeAt, sample, kids] at h2 ⊢
    all_goals
      first
        | (rcases j with _ | j <;> simp at h2 ⊢)
        | skip
    all_goals
      first
        | (rcases k with _ | _ | k <;> simp at h2 ⊢)
        | skip

end PP.Props
