import Verif.Proof.UapiReply
/-! What userspace replies can make `wg show` see: the name asked for, and handshake times that are not negative. -/
namespace WG
open Spec

/-- The device keeps its name, and handshake times are not negative. -/
def GetSt.Sane (nm : CStr) (s : GetSt) : Prop := s.dev.name = nm ∧ ∀ p ∈ s.dev.peers ++ s.cur.toList, 0 ≤ p.handshakeSec

theorem getOther_sane (env : Env) (nm : CStr) (s s' : GetSt) (k v : CStr) (hs : s.Sane nm) (h : getOther env s k v = .go s') : s'.Sane nm := by
  unfold getOther at h
  split at h
  · obtain ⟨n, -, h2⟩ := orBreak_go _ _ _ h
    simp only [GetStep.go.injEq] at h2; rw [← h2]; exact hs
  · simp only [GetStep.go.injEq] at h; rw [← h]; exact hs

theorem sane_setCur (nm : CStr) (s : GetSt) (p q : Peer) (hs : s.Sane nm) (hc : s.cur = some p)
    (hq : q.handshakeSec = p.handshakeSec ∨ 0 ≤ q.handshakeSec) (ret : Int) (tick : Nat) :
    ({ s with cur := some q, ret := ret, tick := tick } : GetSt).Sane nm := by
  refine ⟨hs.1, ?_⟩
  intro x hx
  have hs := hs.2
  simp only [hc, Option.toList_some, List.mem_append, List.mem_singleton] at hs hx
  rcases hx with hx | rfl
  · exact hs x (Or.inl hx)
  · rcases hq with hq | hq
    · rw [hq]; exact hs p (Or.inr rfl)
    · exact hq

theorem getStep_sane (env : Env) (nm : CStr) (pubOf : Key → Key) (s s' : GetSt) (k v : CStr) (hs : s.Sane nm)
    (h : getStep env pubOf s k v = .go s') : s'.Sane nm := by
  unfold getStep at h
  split at h
  · obtain ⟨n, -, h2⟩ := orBreak_go _ _ _ h
    simp only [GetStep.go.injEq] at h2; rw [← h2]
    refine ⟨hs.1, ?_⟩
    intro p hp
    simp only [Option.toList_some, List.mem_append, List.mem_singleton] at hp
    rcases hp with hp | rfl
    · exact hs.2 p (by simpa using hp)
    · simp
  · split at h
    · rename_i hc
      unfold getDevLine at h
      repeat' split at h
      all_goals first
        | exact getOther_sane _ _ _ _ _ _ hs h
        | (obtain ⟨n, -, h2⟩ := orBreak_go _ _ _ h
           simp only [GetStep.go.injEq] at h2; rw [← h2]; exact hs)
    · rename_i p hc
      unfold getPeerLine at h
      repeat' split at h
      all_goals first
        | exact getOther_sane _ _ _ _ _ _ hs h
        | (obtain ⟨n, -, h2⟩ := orBreak_go _ _ _ h
           simp only [GetStep.go.injEq] at h2; rw [← h2]; refine sane_setCur nm s p _ hs hc ?_ _ _; exact Or.inl rfl)
        | (obtain ⟨n, h1, h2⟩ := orBreak_go _ _ _ h
           simp only [GetStep.go.injEq] at h2; rw [← h2]; refine sane_setCur nm s p _ hs hc ?_ _ _; exact Or.inr (by simp))
        | (simp only [getEndpoint] at h
           obtain ⟨⟨host, port⟩, -, h⟩ := orBreak_go _ _ _ h
           simp only at h
           split at h
           · cases h
           · simp only [GetStep.go.injEq] at h; rw [← h]; refine sane_setCur nm s p _ hs hc ?_ _ _; exact Or.inl rfl
           · cases h)

theorem getLoop_sane (env : Env) (nm : CStr) (pubOf : Key → Key) (lines : List CStr) (s : GetSt) (hs : s.Sane nm) (r : Int) (d : Device)
    (h : getLoop env pubOf s lines = (r, some d)) : d.name = nm ∧ ∀ p ∈ d.peers, 0 ≤ p.handshakeSec := by
  have hend : ∀ r' s, GetSt.Sane nm s → getEnd r' s = (r, some d) → d.name = nm ∧ ∀ p ∈ d.peers, 0 ≤ p.handshakeSec := by
    intro r' s hs h
    simp only [getEnd, Prod.mk.injEq] at h
    obtain ⟨-, h⟩ := h
    split at h
    · cases h
    · simp only [Option.some.injEq] at h; rw [← h]; exact hs
  induction lines generalizing s with
  | nil => exact hend _ s hs h
  | cons line rest ih =>
    simp only [getLoop] at h
    split at h
    · exact hend _ s hs h
    · split at h
      · exact hend _ s hs h
      · split at h
        · exact hend _ s hs h
        · rename_i s' hs'
          exact ih s' (getStep_sane _ _ _ _ _ _ _ hs hs') h

/-- Whatever the reply. -/
theorem userspaceGet_sane (env : Env) (pubOf : Key → Key) (iface : CStr) (reply : List UInt8) (r : Int) (d : Device)
    (h : userspaceGetReply env pubOf iface reply = (r, some d)) : d.name = copyName iface ∧ ∀ p ∈ d.peers, 0 ≤ p.handshakeSec :=
  getLoop_sane env _ pubOf _ _ ⟨rfl, by simp⟩ r d h

end WG
