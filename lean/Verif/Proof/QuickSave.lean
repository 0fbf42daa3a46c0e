import Verif.Proof.QuickSaved
/-! Saving the configuration. -/
namespace WG.Quick
open WG.Spec.Quick

variable {α β γ : Type} {X : Call → Prop} {Z : Nat → List Ev → Prop}

theorem bind_assoc (m : Sh α) (f : α → Sh β) (g : β → Sh γ) : (m.bind f).bind g = m.bind fun a => (f a).bind g := by
  funext w s
  unfold Sh.bind
  rcases m w s with ⟨_ | _ | _ | _, s'⟩ <;> rfl

theorem pure_bind (a : α) (f : α → Sh β) : (Sh.pure a).bind f = f a := rfl

/-! ### Gathering -/

theorem does_resolvShow (c : Cfg) : Does X Z (resolvShow c) (fun d l => acts l = [] ∧ DnsShown c d l) := by
  unfold resolvShow
  have h1 : ∀ pre : CStr, Does X Z ((call (.query [b!"resolvconf", b!"-l", pre ++ c.iface])).bind fun r =>
      if r.status = 0 then Sh.pure r.out else ifacePrefix.bind fun pre =>
        (call (.query [b!"cat", b!"/etc/resolvconf/run/interface/" ++ pre ++ c.iface])).bind fun r2 => Sh.pure (r.out ++ r2.out))
      (fun d l => acts l = [] ∧ DnsShown c d l) := by
    intro pre
    have h2 : ∀ r : Reply, Does X Z (if r.status = 0 then Sh.pure r.out else ifacePrefix.bind fun pre =>
        (call (.query [b!"cat", b!"/etc/resolvconf/run/interface/" ++ pre ++ c.iface])).bind fun r2 => Sh.pure (r.out ++ r2.out))
        (fun d l => acts l = [] ∧ DnsShown c d ((.query [b!"resolvconf", b!"-l", pre ++ c.iface], r) :: l)) := by
      intro r
      by_cases hr : r.status = 0
      · rw [if_pos hr]
        refine (does_pure _).weaken ?_
        rintro d l ⟨rfl, rfl⟩
        exact ⟨rfl, .inl ⟨pre, r, List.mem_cons_self .., hr, rfl⟩⟩
      · rw [if_neg hr]
        have h3 : ∀ pre' : CStr, Does X Z ((call (.query [b!"cat", b!"/etc/resolvconf/run/interface/" ++ pre' ++ c.iface])).bind fun r2 =>
            Sh.pure (r.out ++ r2.out)) (fun d l => ∃ r2, l = [(.query [b!"cat", b!"/etc/resolvconf/run/interface/" ++ pre' ++ c.iface], r2)] ∧ d = r.out ++ r2.out) := by
          intro pre'
          refine (does_bind (does_query _) (fun r2 => does_pure (r.out ++ r2.out)) (fun r2 => ⟨_, _, rfl, rfl⟩)).weaken ?_
          rintro d l ⟨r2, l1, l2, rfl, ⟨rfl, rfl⟩, rfl⟩
          exact ⟨r2, rfl, rfl⟩
        refine (does_bind silent_ifacePrefix h3 (fun p => (h3 p).inh)).weaken ?_
        rintro d l ⟨pre', l1, l2, h1, ⟨r2, rfl, rfl⟩, rfl⟩
        refine ⟨by rw [acts_append, h1]; rfl, .inr ⟨pre, r, pre', r2, List.mem_cons_self .., hr, ?_, rfl⟩⟩
        simp
    refine (does_bind (does_query _) h2 (fun t => (h2 t).inh)).weaken ?_
    rintro d l ⟨r, l1, l2, rfl, h, rfl⟩
    exact h
  refine (does_bind silent_ifacePrefix h1 (fun p => (h1 p).inh)).weaken ?_
  rintro d l ⟨pre, l1, l2, h1, ⟨h2, h3⟩, rfl⟩
  refine ⟨by rw [acts_append, h1, h2]; rfl, ?_⟩
  rcases h3 with ⟨p, r, h, hr⟩ | ⟨p, r, p', r', h, hr, h', hd⟩
  · exact .inl ⟨p, r, List.mem_append_right _ h, hr⟩
  · exact .inr ⟨p, r, p', r', List.mem_append_right _ h, hr, List.mem_append_right _ h', hd⟩

theorem does_savedMtu (c : Cfg) : Does X Z (savedMtu c) (fun m l => acts l = [] ∧ MtuShown c m l) := by
  unfold savedMtu
  by_cases h : c.opts.mtu = []
  · rw [if_pos h]
    refine (does_pure _).weaken ?_
    rintro m l ⟨rfl, rfl⟩
    exact ⟨rfl, .inl ⟨h, rfl⟩⟩
  · rw [if_neg h]
    refine (does_bind (does_query _) (fun r => does_pure (mtuIn (chomp r.out))) (fun r => ⟨_, _, rfl, rfl⟩)).weaken ?_
    rintro m l ⟨r, l1, l2, rfl, ⟨rfl, rfl⟩, rfl⟩
    refine ⟨rfl, .inr ⟨h, r, by simp, ?_⟩⟩
    rw [← chomp_eq]
    cases hm : mtuIn (chomp r.out) with
    | some d => exact .inl ⟨d, (mtuIn_iff' _ _).1 hm, rfl⟩
    | none => exact .inr ⟨fun d hd => by rw [← mtuIn_iff', hm] at hd; simp at hd, rfl⟩

/-- Everything `save_config` asks for. -/
def gather (c : Cfg) : Sh (Reply × List UInt8 × Option CStr × Reply) :=
  (call (.query [b!"ip", b!"-all", b!"-brief", b!"address", b!"show", b!"dev", c.iface])).bind fun a =>
  (resolvShow c).bind fun d =>
  (savedMtu c).bind fun m =>
  (call (.query [b!"wg", b!"showconf", c.iface])).bind fun s => Sh.pure (a, d, m, s)

def gatheredText (c : Cfg) (g : Reply × List UInt8 × Option CStr × Reply) : List UInt8 :=
  savedText c (chomp g.2.2.2.out)
    (ownText c.opts (wordsAux [] (briefAddrs c (chomp g.1.out))) ((readLoopLines g.2.1).filterMap nameserverOf) g.2.2.1)

def rmCleanup (c : Cfg) : Sh Unit := (call (removeTmp c)).bind fun r => if r.status ≠ 0 then exitWith r.status else Sh.pure ()

theorem saveConfig_eq (c : Cfg) : saveConfig c = (gather c).bind fun g =>
    if g.2.2.2.status ≠ 0 then exitWith g.2.2.2.status else guarded (rmCleanup c) (saveBody c (gatheredText c g)) := by
  unfold saveConfig gather
  simp only [bind_assoc, pure_bind]
  rfl

def Gathered (c : Cfg) (g : Reply × List UInt8 × Option CStr × Reply) (l : List Ev) : Prop :=
  acts l = [] ∧ (.query [b!"ip", b!"-all", b!"-brief", b!"address", b!"show", b!"dev", c.iface], g.1) ∈ l ∧ DnsShown c g.2.1 l ∧
    MtuShown c g.2.2.1 l ∧ (.query [b!"wg", b!"showconf", c.iface], g.2.2.2) ∈ l

theorem dnsShown_mono {c : Cfg} {d : List UInt8} {h h' : List Ev} (hd : DnsShown c d h) (hs : h ⊆ h') : DnsShown c d h' := by
  rcases hd with ⟨p, r, h, hr⟩ | ⟨p, r, p', r', h, hr, h', hd⟩
  · exact .inl ⟨p, r, hs h, hr⟩
  · exact .inr ⟨p, r, p', r', hs h, hr, hs h', hd⟩

theorem mtuShown_mono {c : Cfg} {m : Option CStr} {h h' : List Ev} (hd : MtuShown c m h) (hs : h ⊆ h') : MtuShown c m h' := by
  rcases hd with h | ⟨h0, r, h, hr⟩
  · exact .inl h
  · exact .inr ⟨h0, r, hs h, hr⟩

theorem does_gather (c : Cfg) : Does X Z (gather c) (Gathered c) := by
  unfold gather
  have h4 : ∀ (a : Reply) (d : List UInt8) (m : Option CStr), Does X Z ((call (.query [b!"wg", b!"showconf", c.iface])).bind fun s => Sh.pure (a, d, m, s))
      (fun g l => ∃ s, g = (a, d, m, s) ∧ l = [(.query [b!"wg", b!"showconf", c.iface], s)]) := by
    intro a d m
    refine (does_bind (does_query _) (fun s => does_pure (a, d, m, s)) (fun r => ⟨_, _, rfl, rfl⟩)).weaken ?_
    rintro g l ⟨r, l1, l2, rfl, ⟨rfl, rfl⟩, rfl⟩
    exact ⟨r, rfl, rfl⟩
  have h3 := fun (a : Reply) (d : List UInt8) => does_bind (does_savedMtu (X := X) (Z := Z) c) (h4 a d) (fun m => (h4 a d m).inh)
  have h2 := fun (a : Reply) => does_bind (does_resolvShow (X := X) (Z := Z) c) (h3 a) (fun d => (h3 a d).inh)
  refine (does_bind (does_query (X := X) (Z := Z) [b!"ip", b!"-all", b!"-brief", b!"address", b!"show", b!"dev", c.iface]) h2 (fun a => (h2 a).inh)).weaken ?_
  rintro g l ⟨a, la, l', rfl, ⟨d, ld, l'', ⟨hd1, hd2⟩, ⟨m, lm, ls, ⟨hm1, hm2⟩, ⟨s, rfl, rfl⟩, rfl⟩, rfl⟩, rfl⟩
  refine ⟨?_, ?_, ?_, ?_, ?_⟩
  · simp only [acts_append, hd1, hm1]; rfl
  · simp
  · exact dnsShown_mono hd2 (by intro x hx; simp [hx])
  · exact mtuShown_mono hm2 (by intro x hx; simp [hx])
  · simp

/-! ### Writing -/

theorem saveBody_abs (W S M : Call) (w : World) (s : St) :
    ∃ l, (((call W).bind fun r => if r.status ≠ 0 then exitWith 1 else (run true S).bind fun _ => (call M).bind fun r =>
        if r.status ≠ 0 then exitWith 1 else Sh.pure ()) w s).2 = { s with hist := s.hist ++ l } ∧
      match (((call W).bind fun r => if r.status ≠ 0 then exitWith 1 else (run true S).bind fun _ => (call M).bind fun r =>
        if r.status ≠ 0 then exitWith 1 else Sh.pure ()) w s).1 with
      | .ok _ => ∃ r1 r2 r3, l = [(W, r1), (S, r2), (M, r3)] ∧ r1.status = 0 ∧ r1.sig = false ∧ r2.status = 0 ∧ r2.sig = false ∧
          r3.status = 0 ∧ r3.sig = false
      | .running => False
      | _ => (∃ r1, l = [(W, r1)] ∧ ¬ (r1.status = 0 ∧ r1.sig = false)) ∨
          (∃ r1 r2, l = [(W, r1), (S, r2)] ∧ r1.status = 0 ∧ r1.sig = false ∧ ¬ (r2.status = 0 ∧ r2.sig = false)) ∨
          (∃ r1 r2 r3, l = [(W, r1), (S, r2), (M, r3)] ∧ r1.status = 0 ∧ r1.sig = false ∧ r2.status = 0 ∧ r2.sig = false ∧
            ¬ (r3.status = 0 ∧ r3.sig = false)) := by
  rw [bind_call]
  by_cases h1 : (w s.hist W).sig = true
  · rw [if_pos h1]; exact ⟨_, rfl, .inl ⟨_, rfl, by simp [h1]⟩⟩
  rw [if_neg h1]
  by_cases h2 : (w s.hist W).status ≠ 0
  · rw [if_pos h2]; exact ⟨_, rfl, .inl ⟨_, rfl, fun h => h2 h.1⟩⟩
  rw [if_neg h2]
  unfold run
  rw [bind_assoc, bind_call]
  generalize hs1 : ({ s with hist := s.hist ++ [(W, w s.hist W)] } : St) = s1
  have e1 : s1.hist = s.hist ++ [(W, w s.hist W)] := by rw [← hs1]
  have q1 : ({ s1 with hist := s1.hist ++ [(S, w s1.hist S)] } : St) = { s with hist := s.hist ++ [(W, w s.hist W), (S, w s1.hist S)] } := by
    rw [e1, ← hs1]; simp
  have h1' : (w s.hist W).sig = false := by simpa using h1
  have h2' := not_not.1 h2
  by_cases h3 : (w s1.hist S).sig = true
  · rw [if_pos h3, q1]; exact ⟨_, rfl, .inr (.inl ⟨_, _, rfl, h2', h1', by simp [h3]⟩)⟩
  rw [if_neg h3]
  by_cases h4 : (w s1.hist S).status ≠ 0
  · rw [if_pos (by simpa using h4), q1]
    exact ⟨_, rfl, .inr (.inl ⟨_, _, rfl, h2', h1', fun h => h4 h.1⟩)⟩
  rw [if_neg (by simpa using h4), pure_bind, bind_call]
  generalize hs2 : ({ s1 with hist := s1.hist ++ [(S, w s1.hist S)] } : St) = s2
  have e2 : s2.hist = s1.hist ++ [(S, w s1.hist S)] := by rw [← hs2]
  have q2 : ({ s2 with hist := s2.hist ++ [(M, w s2.hist M)] } : St) =
      { s with hist := s.hist ++ [(W, w s.hist W), (S, w s1.hist S), (M, w s2.hist M)] } := by
    rw [e2, ← hs2, e1, ← hs1]; simp
  have h3' : (w s1.hist S).sig = false := by simpa using h3
  have h4' := not_not.1 h4
  by_cases h5 : (w s2.hist M).sig = true
  · rw [if_pos h5, q2]; exact ⟨_, rfl, .inr (.inr ⟨_, _, _, rfl, h2', h1', h4', h3', by simp [h5]⟩)⟩
  rw [if_neg h5, q2]
  by_cases h6 : (w s2.hist M).status ≠ 0
  · rw [if_pos h6]; exact ⟨_, rfl, .inr (.inr ⟨_, _, _, rfl, h2', h1', h4', h3', fun h => h6 h.1⟩)⟩
  · rw [if_neg h6]; exact ⟨_, rfl, _, _, _, rfl, h2', h1', h4', h3', not_not.1 h6, by simpa using h5⟩

theorem rm_run (c : Cfg) (w : World) (s : St) :
    ∃ r, (rmCleanup c (calm w) s).2 = { s with hist := s.hist ++ [(removeTmp c, r)] } ∧
      ((rmCleanup c (calm w) s).1 = .ok () ∨ ∃ n, (rmCleanup c (calm w) s).1 = .exit n) := by
  unfold rmCleanup
  rw [bind_call]
  rw [if_neg (by simp [calm])]
  refine ⟨calm w s.hist (removeTmp c), ?_, ?_⟩
  · split <;> rfl
  · split
    · exact .inr ⟨_, rfl⟩
    · exact .inl rfl

theorem rm_exit (c : Cfg) (n : Nat) (w : World) (s : St) :
    ∃ r m, onExit (rmCleanup c) n w s = (.exit m, { s with hist := s.hist ++ [(removeTmp c, r)] }) := by
  obtain ⟨r, h1, h2⟩ := rm_run c w s
  unfold onExit
  rcases e : rmCleanup c (calm w) s with ⟨o, s'⟩
  rw [e] at h1 h2
  simp only at h1 h2
  subst h1
  rcases h2 with rfl | ⟨m, rfl⟩
  · exact ⟨r, n, rfl⟩
  · exact ⟨r, m, rfl⟩

theorem write_run (c : Cfg) (x : List UInt8) (w : World) (s : St) :
    ∃ t, (guarded (rmCleanup c) (saveBody c x) w s).2 = { s with hist := s.hist ++ t } ∧
      match (guarded (rmCleanup c) (saveBody c x) w s).1 with
      | .ok _ => SaveDone c x t
      | .exit _ => SaveStopped c x t
      | _ => False := by
  obtain ⟨l, h1, h2⟩ := saveBody_abs (writeTmp c x) (syncTmp c) (moveTmp c) w s
  change (saveBody c x w s).2 = _ at h1
  change (match (saveBody c x w s).1 with | .ok _ => _ | .running => _ | _ => _) at h2
  unfold guarded
  rcases e : saveBody c x w s with ⟨o, s1⟩
  rw [e] at h1 h2
  simp only at h1 h2
  subst h1
  cases o with
  | ok a => exact ⟨l, rfl, h2⟩
  | running => exact h2.elim
  | exit n =>
    dsimp only
    obtain ⟨r, m, h⟩ := rm_exit c n w { s with hist := s.hist ++ l }
    rw [h]
    refine ⟨l ++ [(removeTmp c, r)], by simp, l, _, rfl, by simp, ?_, h2⟩
    intro e he
    rw [List.mem_singleton] at he; subst he; rfl
  | signal n =>
    dsimp only
    obtain ⟨r, h3, h4⟩ := rm_run c w { s with hist := s.hist ++ l }
    rcases e2 : rmCleanup c (calm w) { s with hist := s.hist ++ l } with ⟨o2, s2⟩
    rw [e2] at h3 h4
    simp only at h3 h4
    subst h3
    rcases h4 with rfl | ⟨k, rfl⟩
    · dsimp only
      obtain ⟨r', m, h⟩ := rm_exit c n w { s with hist := s.hist ++ l ++ [(removeTmp c, r)] }
      rw [h]
      refine ⟨l ++ [(removeTmp c, r), (removeTmp c, r')], by simp, l, _, rfl, by simp, ?_, h2⟩
      intro e he
      simp only [List.mem_cons, List.not_mem_nil, or_false] at he
      rcases he with rfl | rfl <;> rfl
    · dsimp only
      obtain ⟨r', m, h⟩ := rm_exit c k w { s with hist := s.hist ++ l ++ [(removeTmp c, r)] }
      rw [h]
      refine ⟨l ++ [(removeTmp c, r), (removeTmp c, r')], by simp, l, _, rfl, by simp, ?_, h2⟩
      intro e he
      simp only [List.mem_cons, List.not_mem_nil, or_false] at he
      rcases he with rfl | rfl <;> rfl

/-- The whole of `save_config`. -/
theorem save_run (c : Cfg) (w : World) (s : St) :
    ∃ q t, (saveConfig c w s).2.hist = s.hist ++ (q ++ t) ∧ (∀ e ∈ q, isAct e.1 = false) ∧
      (saveConfig c w s).2.haveDns = s.haveDns ∧ (saveConfig c w s).2.haveFw = s.haveFw ∧
      ((∃ x, NewConfig c q x ∧
          ((∃ u, (saveConfig c w s).1 = .ok u ∧ SaveDone c x t) ∨ ∃ n, (saveConfig c w s).1 = .exit n ∧ SaveStopped c x t)) ∨
       (t = [] ∧ ∀ u, (saveConfig c w s).1 ≠ .ok u)) := by
  rw [saveConfig_eq]
  have hk : Keeps (gather c) := by
    unfold gather resolvShow savedMtu
    refine keeps_bind (keeps_call _) fun a => keeps_bind (keeps_bind keeps_ifacePrefix fun _ => keeps_bind (keeps_call _) fun r => ?_) fun d =>
      keeps_bind ?_ fun m => keeps_bind (keeps_call _) fun s => keeps_pure _
    · split
      · exact keeps_pure _
      · exact keeps_bind keeps_ifacePrefix fun _ => keeps_bind (keeps_call _) fun _ => keeps_pure _
    · split
      · exact keeps_pure _
      · exact keeps_bind (keeps_call _) fun _ => keeps_pure _
  have hk := hk w s
  obtain ⟨q, h1, _, h2⟩ := does_gather (X := fun _ => False) (Z := fun _ _ => False) c w s
  unfold Sh.bind
  rcases e : gather c w s with ⟨o, s1⟩
  rw [e] at h1 h2 hk
  simp only at h1 h2 hk
  have hq : ∀ l : List Ev, acts l = [] → ∀ e ∈ l, isAct e.1 = false := by
    intro l hl e he
    unfold acts at hl
    rw [List.filter_eq_nil_iff] at hl
    simpa using hl e.1 (List.mem_map_of_mem he)
  rcases h2 with ⟨g, rfl, h3, _⟩ | ⟨pre, suf, g, full, rest, h2, rfl, _, h5, rfl, h7⟩
  · obtain ⟨ha, hb, hc, hd, he⟩ := h3
    dsimp only
    by_cases hs : g.2.2.2.status ≠ 0
    · rw [if_pos hs]
      exact ⟨q, [], by simp [exitWith, h1], hq _ ha, hk.1, hk.2, .inr ⟨rfl, by simp [exitWith]⟩⟩
    · rw [if_neg hs]
      obtain ⟨t, g1, g2⟩ := write_run c (gatheredText c g) w s1
      refine ⟨q, t, by rw [g1, h1, List.append_assoc], hq _ ha, by rw [g1]; exact hk.1, by rw [g1]; exact hk.2, .inl ⟨gatheredText c g, ?_, ?_⟩⟩
      · exact newConfig_of hb hc hd he (not_not.1 hs)
      · revert g2
        rcases (guarded (rmCleanup c) (saveBody c (gatheredText c g)) w s1).1 with u | n | n | _
        · exact fun h => .inl ⟨u, rfl, h⟩
        · exact fun h => .inr ⟨n, rfl, h⟩
        · exact fun h => h.elim
        · exact fun h => h.elim
  · have hact : acts (pre ++ suf) = [] := by
      have := h5.1
      rw [acts_append, List.append_eq_nil_iff] at this
      rw [this.2] at h7
      rw [acts_append, this.1, List.prefix_nil.1 h7]; rfl
    refine ⟨pre ++ suf, [], ?_, hq _ hact, ?_, ?_, .inr ⟨rfl, ?_⟩⟩ <;> cases o <;>
      first | exact h2.elim | (simp [h1]; done) | exact hk.1 | exact hk.2

end WG.Quick
