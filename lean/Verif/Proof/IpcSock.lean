import Verif.Proof.IpcKernel
/-! Sockets of userspace implementations (C44, C46). -/
namespace WG
open Spec

theorem entryName_eq (ent : CStr) : entryName ent = sockName ent := by
  rw [entryName, sockName]
  by_cases h : ent.length ≤ 5
  · rw [if_pos h, if_neg]
    rintro ⟨⟨p, hp⟩, hne⟩
    have hl := congrArg List.length hp
    simp at hl
    have : p = [] := List.eq_nil_of_length_eq_zero (by omega)
    subst this
    exact hne hp.symm
  · rw [if_neg h]
    by_cases h2 : ent.drop (ent.length - 5) = b!".sock"
    · rw [if_pos h2, if_pos]
      refine ⟨⟨ent.take (ent.length - 5), by rw [← h2, List.take_append_drop]⟩, ?_⟩
      rintro rfl
      exact h (by decide)
    · rw [if_neg h2, if_neg]
      rintro ⟨⟨p, hp⟩, -⟩
      refine h2 ?_
      subst hp
      rw [List.length_append, show (b!".sock").length = 5 from rfl, Nat.add_sub_cancel, List.drop_left']
      rfl

theorem sockName_some {file n : CStr} (h : sockName file = some n) : file = n ++ b!".sock" ∧ n ≠ [] := by
  rw [sockName] at h
  split at h
  · rename_i hc
    obtain ⟨⟨p, rfl⟩, hne⟩ := hc
    cases h
    rw [List.length_append, show (b!".sock").length = 5 from rfl, Nat.add_sub_cancel, List.take_left']
    · refine ⟨rfl, ?_⟩
      rintro rfl
      exact hne rfl
    · rfl
  · cases h

/-- Visiting the entries: the names found, and what has happened. -/
def visit (env : SockEnv) : List CStr → List SockEv → List CStr × List SockEv
  | [], tr => ([], tr)
  | ent :: rest, tr =>
    match sockName ent with
    | none => visit env rest tr
    | some name =>
      let h := hasInterface env name tr
      let r := visit env rest h.2
      (if h.1 then name :: r.1 else r.1, r.2)

theorem visit_none {env : SockEnv} {ent : CStr} (h : sockName ent = none) (rest : List CStr) (tr : List SockEv) : visit env (ent :: rest) tr = visit env rest tr := by
  rw [visit, h]

theorem visit_some {env : SockEnv} {ent n : CStr} (h : sockName ent = some n) (rest : List CStr) (tr : List SockEv) :
    visit env (ent :: rest) tr = (if (hasInterface env n tr).1 then n :: (visit env rest (hasInterface env n tr).2).1 else (visit env rest (hasInterface env n tr).2).1,
      (visit env rest (hasInterface env n tr).2).2) := by
  rw [visit, h]

/-- The loop adds what it finds. -/
theorem userspaceLoop_spec (heap : Heap) (env : SockEnv) (hF : ∀ n e, heap.fail n = some e → 0 < e) : ∀ (ents : List CStr) (l : StrList) (names : List CStr) (tr : List SockEv),
    Holds l names → (nameBuffer (names ++ (visit env ents tr).1)).length < 2 ^ 61 →
    (∃ l', userspaceLoop heap env ents l tr = .ok (0, l', (visit env ents tr).2) ∧ Holds l' (names ++ (visit env ents tr).1)) ∨
    ∃ n err l' tr', heap.fail n = some err ∧ userspaceLoop heap env ents l tr = .ok (-(err : Int), l', tr') := by
  intro ents
  induction ents with
  | nil => intro l names tr h _; exact .inl ⟨l, rfl, by simpa [visit] using h⟩
  | cons ent rest ih =>
    intro l names tr h hsz
    rw [userspaceLoop, entryName_eq]
    cases hn : sockName ent with
    | none =>
      rw [visit_none hn] at hsz ⊢
      exact ih l names tr h hsz
    | some n =>
      rw [visit_some hn] at hsz ⊢
      simp only
      rcases hi : hasInterface env n tr with ⟨_ | _, tr'⟩
      · rw [hi] at hsz
        exact ih l names tr' h hsz
      · rw [hi] at hsz
        simp only [if_true] at hsz ⊢
        have hne := (sockName_some hn).2
        have hlen := nameBuffer_append_length (names ++ [n]) (visit env rest tr').1
        rw [List.append_assoc, List.singleton_append] at hlen
        rcases stringListAdd_spec heap h n hne (by rw [← nameBuffer_snoc_length]; omega) with ⟨l', e1, e2⟩ | ⟨e, e1, e2, e3⟩
        · rw [e1, okb]
          simp only [Int.lt_irrefl, if_false]
          rcases ih l' (names ++ [n]) tr' e2 (by rw [List.append_assoc, List.singleton_append]; exact hsz) with ⟨l'', i1, i2⟩ | hh
          · refine .inl ⟨l'', i1, ?_⟩
            rw [List.append_assoc, List.singleton_append] at i2
            exact i2
          · exact .inr hh
        · rw [e2, okb]
          have := hF _ _ e1
          simp only
          rw [if_pos (by omega)]
          exact .inr ⟨_, e, _, _, e1, rfl⟩

/-- `hasInterface` when the answers do not depend on the history. -/
def Steady (env : SockEnv) : Prop := (∀ tr, env.stat tr = env.stat []) ∧ (∀ tr, env.socket tr = env.socket []) ∧ (∀ tr, env.connect tr = env.connect [])

/-- Something listens at the path (the connection may still fail for another reason than that nothing listens). -/
def Live (env : SockEnv) (path : CStr) : Prop := env.stat [] path = .ok true ∧ env.socket [] = none ∧ env.connect [] path ≠ some 111

theorem hasInterface_steady {env : SockEnv} (h : Steady env) (name : CStr) (tr : List SockEv) :
    (hasInterface env name tr).1 = true ↔ c!"/" ∉ name ∧ Live env (sockPath env name) := by
  obtain ⟨h1, h2, h3⟩ := h
  rw [hasInterface, Live]
  simp only [h1 tr]
  by_cases hc : c!"/" ∈ name
  · simp [hc]
  · simp only [List.contains_iff_mem, hc, if_false, not_false_eq_true, true_and]
    cases env.stat [] (sockPath env name) with
    | error e => simp
    | ok b =>
      cases b with
      | false => simp
      | true =>
        simp only [h2 (tr ++ _), h3 (tr ++ _)]
        cases env.socket [] with
        | some e => simp
        | none =>
          simp only [true_and]
          split <;> simp_all

theorem visit_steady {env : SockEnv} (h : Steady env) : ∀ (ents : List CStr) (tr : List SockEv),
    ∃ p : CStr → Bool, (∀ n, p n = true ↔ c!"/" ∉ n ∧ Live env (sockPath env n)) ∧ (visit env ents tr).1 = (ents.filterMap sockName).filter p := by
  classical
  intro ents tr
  refine ⟨fun n => decide (c!"/" ∉ n ∧ Live env (sockPath env n)), fun n => by simp, ?_⟩
  induction ents generalizing tr with
  | nil => rfl
  | cons ent rest ih =>
    cases hn : sockName ent with
    | none => rw [visit_none hn, ih, List.filterMap_cons_none hn]
    | some n =>
      rw [visit_some hn, ih, List.filterMap_cons_some hn, List.filter_cons]
      have := hasInterface_steady h n tr
      by_cases hb : (hasInterface env n tr).1 = true
      · simp only [hb, if_true, decide_eq_true (this.1 hb)]
      · simp only [hb, decide_eq_false (fun e => hb (this.2 e))]

theorem visit_sublist (env : SockEnv) : ∀ (ents : List CStr) (tr : List SockEv), List.Sublist (visit env ents tr).1 (ents.filterMap sockName) := by
  intro ents
  induction ents with
  | nil => intro tr; exact .refl _
  | cons ent rest ih =>
    intro tr
    cases hn : sockName ent with
    | none => rw [visit_none hn, List.filterMap_cons_none hn]; exact ih tr
    | some n =>
      rw [visit_some hn, List.filterMap_cons_some hn]
      simp only
      split
      · exact (ih _).cons_cons _
      · exact (ih _).cons _

end WG
