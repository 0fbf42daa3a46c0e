import Verif.Proof.HeapRead
/-! `wg set` with its heap (C49). -/
namespace WG

theorem CtxRep.peer_iff {base : Nat → Option Cell} {m : Mem} {h : HCtx} {c : Ctx} (hcr : CtxRep base m h c) : (!c.device.peers.isEmpty) = h.lastPeer.isSome := by
  obtain ⟨a, d, ps, hd, hr, hc, hrest⟩ := hcr
  rw [hrest.1, hc]
  rcases List.eq_nil_or_concat ps with rfl | ⟨init, n, rfl⟩
  · rfl
  · simp [lastId, absDev]

/-- After a step of the loop, the rest, or `error:`. -/
theorem after_spec {oom : Nat → Bool} {base : Nat → Option Cell} {m : Mem} {h : HCtx} {r : Res Ctx} {k : Ctx → Res Ctx} {kh : HCtx → HM (Bool × HCtx)} (x : HM (Bool × HCtx))
    (hx : Outcome oom base h.device r (x m)) (hk : ∀ (m' : Mem) (h' : HCtx) (c' : Ctx), CtxRep base m' h' c' → Outcome' oom base h'.device (k c') (kh h' m')) :
    Outcome' oom base h.device (r.bind k) ((do
      let (ok, c) ← x
      if ok then kh c else do
        freeDevice h.device
        pure (false, h) : HM (Bool × HCtx)) m) := by
  revert hx
  rw [hm_bind_def]
  cases x m with
  | ok y =>
    obtain ⟨⟨b, h'⟩, m'⟩ := y
    cases b with
    | true =>
      rintro ⟨hdev, c', hc', hcr'⟩
      rw [hc', okb, okb]
      have := hk m' h' c' hcr'
      rw [hdev] at this
      exact this
    | false =>
      rintro ⟨hdev, hc', a', d', ps', hd', r1⟩
      rw [okb ((false, h'), m')]
      simp only [Bool.false_eq_true, if_false]
      rw [hd', hm_bind r1.free]
      exact ⟨hc'.imp_left fun e => by rw [e], rfl, r1.free_bound⟩
  | exit1 => intro h1; simp only [Outcome, Outcome'] at h1 ⊢; rw [h1]
  | running => intro h1; simp only [Outcome, Outcome'] at h1 ⊢; rw [h1]
  | fail => exact id
  | ub => exact id

theorem err_spec {oom : Nat → Bool} {base : Nat → Option Cell} {m : Mem} {h : HCtx} {c : Ctx} (hcr : CtxRep base m h c) :
    Outcome' oom base h.device .fail ((do freeDevice h.device; pure (false, h) : HM (Bool × HCtx)) m) := by
  obtain ⟨a, d, ps, hd, hr, -⟩ := hcr
  rw [hd, hm_bind hr.free]
  exact ⟨.inl rfl, rfl, hr.free_bound⟩

theorem hCmdPeer_spec (oom : Nat → Bool) (env : Env) (v : CStr) {base : Nat → Option Cell} {m : Mem} {h : HCtx} {c : Ctx} (hcr : CtxRep base m h c) :
    Outcome oom base h.device ((Res.ofOption (parseKey env v)).bind fun k => .ok { c with device := { c.device with
          peers := c.device.peers ++ [{ publicKey := k, flags := { hasPublicKey := true } }] } }) (hCmdPeer oom env h v m) := by
  obtain ⟨a, d, ps, hd, hr, hc, hrest⟩ := hcr
  unfold hCmdPeer
  rw [hd, hrest.1]
  rcases hNewPeer_spec oom hr with ⟨m1, e1, ho, r1⟩ | ⟨t, m1, e1, r1⟩
  · rw [hm_bind e1]
    exact ⟨hd, .inr ho, a, _, _, rfl, r1⟩
  · rw [hm_bind e1]
    simp only [reduceCtorEq, if_false]
    obtain ⟨m2, e2, r2⟩ := hSet_peer (parseKey env v) (fun k p => { p with publicKey := k, flags := { p.flags with hasPublicKey := true } }) r1
    rw [hm_bind e2]
    cases hk : parseKey env v with
    | none => exact ⟨rfl, .inl rfl, a, _, _, rfl, r2⟩
    | some k =>
      rw [hk] at r2
      refine ⟨rfl, _, rfl, a, _, _, rfl, r2, ?_, ?_, ?_, hrest.2.2.1, hrest.2.2.2.1, hrest.2.2.2.2.1, hrest.2.2.2.2.2.1, by simp⟩
      · simp [hc, absDev, absPeer]
      · simp [lastId]
      · simp [lastId]

theorem hCmdIps_spec (oom : Nat → Bool) (env : Env) (v : CStr) {base : Nat → Option Cell} {m : Mem} {h : HCtx} {c : Ctx} (hcr : CtxRep base m h c) (hp : h.lastPeer.isSome = true) :
    Outcome oom base h.device ((Res.ofOption (parseAllowedips env (stripSpaces env v))).bind fun (as, ws) =>
        { c with warnings := c.warnings ++ ws }.updPeer fun p =>
          { p with allowedIPs := p.allowedIPs ++ as, flags := { p.flags with replaceAllowedIPs := true } }) (hCmdIps oom env h v m) := by
  obtain ⟨a, d, ps, hd, hr, hc, hrest⟩ := hcr
  unfold hCmdIps
  rcases halloc_cases oom .bytes m with ⟨ho, he⟩ | ⟨ho, he⟩
  · rw [hm_bind he]
    exact ⟨rfl, .inr ⟨_, ho⟩, a, d, ps, hd, hr.later⟩
  · rw [hm_bind he]
    simp only [reduceCtorEq, if_false]
    obtain ⟨init, ⟨y, p, l⟩, rfl⟩ : ∃ init n, ps = init ++ [n] := by
      rcases List.eq_nil_or_concat ps with rfl | ⟨init, n, rfl⟩
      · rw [hrest.1] at hp; simp [lastId] at hp
      · exact ⟨init, n, by rw [List.concat_eq_append]⟩
    have hb : upd (upd base m.brk (some .bytes)) m.brk none = base := by rw [upd_upd]; exact upd_id _ _ _ hr.brk_fresh.2
    have r0 := hr.alloc .bytes
    have key := ips_op (oom := oom) env (stripSpaces env v) hd r0 hc hrest
    revert key
    rw [hm_bind_def, hm_bind_def]
    cases hAllowedips oom env h.lastPeer h.lastIp (stripSpaces env v) ⟨upd m.cell m.brk (some .bytes), m.brk + 1⟩ with
    | ok r =>
      obtain ⟨⟨b, last, ws⟩, m'⟩ := r
      rw [okb ((b, last, ws), m'), okb ((b, last, ws), m')]
      cases b with
      | true =>
        rintro ⟨hdev, c', hc', a', d', ps', hd', r1, hrest'⟩
        obtain ⟨e2, r2⟩ := r1.freeOther (t := m.brk) (upd_self ..)
        simp only
        rw [hm_bind e2]
        exact ⟨hdev, c', hc', a', d', ps', hd', r2.cast hb, hrest'⟩
      | false =>
        rintro ⟨hdev, hc', a', d', ps', hd', r1⟩
        obtain ⟨e2, r2⟩ := r1.freeOther (t := m.brk) (upd_self ..)
        simp only
        rw [hm_bind e2]
        exact ⟨hdev, hc', a', d', ps', hd', r2.cast hb⟩
    | exit1 => exact id
    | running => exact id
    | fail => exact id
    | ub => exact id

theorem hRemove_spec {oom : Nat → Bool} {base : Nat → Option Cell} {m : Mem} {h : HCtx} {c : Ctx} (hcr : CtxRep base m h c) (hp : h.lastPeer.isSome = true) (k : Ctx → Res Ctx)
    (kh : HM (Bool × HCtx)) (hk : ∀ (m' : Mem) (c' : Ctx), CtxRep base m' h c' → Outcome' oom base h.device (k c') (kh m')) :
    Outcome' oom base h.device ((c.updPeer fun p => { p with flags := { p.flags with removeMe := true } }).bind k)
      ((do hmod h.lastPeer (onPeer fun p => { p with flags := { p.flags with removeMe := true } }); kh : HM (Bool × HCtx)) m) := by
  obtain ⟨a, d, ps, hd, hr, hc, hrest⟩ := hcr
  obtain ⟨init, ⟨y, p, l⟩, rfl⟩ : ∃ init n, ps = init ++ [n] := by
    rcases List.eq_nil_or_concat ps with rfl | ⟨init, n, rfl⟩
    · rw [hrest.1] at hp; simp [lastId] at hp
    · exact ⟨init, n, by rw [List.concat_eq_append]⟩
  have hy : h.lastPeer = some y := by rw [hrest.1]; simp [lastId]
  obtain ⟨m1, e1, r1, -⟩ := hr.onLast (fun p => { p with flags := { p.flags with removeMe := true } })
  rw [updPeer_abs (n' := (y, { p with flags := { p.flags with removeMe := true } }, l)) hc _ rfl, okb, hy, hm_bind e1]
  refine hk m1 _ ⟨a, d, _, hd, r1, rfl, ?_, ?_, hrest.2.2.1, hrest.2.2.2.1, hrest.2.2.2.2.1, hrest.2.2.2.2.2.1, by simp⟩
  · rw [hy]; simp [lastId]
  · rw [hrest.2.1]; simp

theorem bind_assoc_res {α β γ : Type} (x : Res α) (f : α → Res β) (g : β → Res γ) : (x.bind f).bind g = x.bind fun a => (f a).bind g := by cases x <;> rfl

/-- config.c:578-650 -/
theorem hCmdLoop_spec (oom : Nat → Bool) (env : Env) : ∀ (n : Nat) (argv : List CStr), argv.length ≤ n → ∀ {base : Nat → Option Cell} {m : Mem} {h : HCtx} {c : Ctx} (_ : CtxRep base m h c),
    Outcome' oom base h.device (readCmdLoop env c argv) (hCmdLoop oom env h argv m) := by
  intro n
  induction n with
  | zero =>
    intro argv hn base m h c hcr
    have : argv = [] := List.length_eq_zero_iff.1 (by omega)
    subst this
    rw [readCmdLoop, hCmdLoop]
    exact ⟨rfl, c, rfl, hcr⟩
  | succ n ih =>
    intro argv hn base m h c hcr
    have hpi := hcr.peer_iff
    match argv, hn with
    | [], _ =>
      rw [readCmdLoop, hCmdLoop]
      exact ⟨rfl, c, rfl, hcr⟩
    | [a], _ =>
      rw [readCmdLoop, hCmdLoop, hpi]
      by_cases h1 : (a = b!"remove" && h.lastPeer.isSome) = true
      · rw [if_pos h1, if_pos h1]
        rw [Bool.and_eq_true] at h1
        have := hRemove_spec (oom := oom) hcr h1.2 (fun c => .ok c) (pure (true, h)) (fun m' c' r => ⟨rfl, c', rfl, r⟩)
        revert this
        cases c.updPeer fun p => { p with flags := { p.flags with removeMe := true } } <;> exact id
      · rw [if_neg h1, if_neg h1]
        exact err_spec hcr
    | a :: v :: rest, hn =>
      have ihr : ∀ (m' : Mem) (h' : HCtx) (c' : Ctx), CtxRep base m' h' c' → Outcome' oom base h'.device (readCmdLoop env c' rest) (hCmdLoop oom env h' rest m') :=
        fun m' h' c' r => ih rest (by simp at hn; omega) r
      have hlast : h.lastPeer.isSome = true → ∀ {a' : Nat} {d' : Device} {ps' : List PeerN}, h.lastPeer = lastId ps' → ∃ init n, ps' = init ++ [n] := by
        intro hp a' d' ps' e
        rcases List.eq_nil_or_concat ps' with rfl | ⟨init, n, rfl⟩
        · rw [e] at hp; simp [lastId] at hp
        · exact ⟨init, n, by rw [List.concat_eq_append]⟩
      have hcr0 := hcr
      obtain ⟨x, d, ps, hd, hr, hc, hrest⟩ := hcr
      rw [readCmdLoop, hCmdLoop, hpi]
      simp only
      by_cases h1 : (a = b!"listen-port" && !h.lastPeer.isSome) = true
      · rw [if_pos h1, if_pos h1]
        have := after_spec (k := fun c => readCmdLoop env c rest) (kh := fun h => hCmdLoop oom env h rest) _ (dev_op (oom := oom) hd hc hrest (hPort env h.device v) (parsePort env v)
          (fun p d => { d with listenPort := p, flags := { d.flags with hasListenPort := true } })
          (by rw [hd]; obtain ⟨m', e, r⟩ := hPort_spec env v hr; refine ⟨m', e, ?_⟩; revert r; cases parsePort env v <;> exact id) (fun _ => rfl)) ihr
        rwa [bind_assoc_res] at this
      rw [if_neg h1, if_neg h1]
      by_cases h2 : (a = b!"fwmark" && !h.lastPeer.isSome) = true
      · rw [if_pos h2, if_pos h2]
        have := after_spec (k := fun c => readCmdLoop env c rest) (kh := fun h => hCmdLoop oom env h rest) _ (dev_op (oom := oom) hd hc hrest
          (hSet (parseFwmark env v) h.device fun m => onDev fun d => { d with fwmark := m, flags := { d.flags with hasFwmark := true } }) (parseFwmark env v)
          (fun p d => { d with fwmark := p, flags := { d.flags with hasFwmark := true } }) (by rw [hd]; exact hSet_dev _ _ hr) (fun _ => rfl)) ihr
        rwa [bind_assoc_res] at this
      rw [if_neg h2, if_neg h2]
      by_cases h3 : (a = b!"private-key" && !h.lastPeer.isSome) = true
      · rw [if_pos h3, if_pos h3]
        have := after_spec (k := fun c => readCmdLoop env c rest) (kh := fun h => hCmdLoop oom env h rest) _ (dev_op (oom := oom) hd hc hrest
          (hSet (parseKeyfile env v) h.device fun m => onDev fun d => { d with privateKey := m, flags := { d.flags with hasPrivateKey := true } }) (parseKeyfile env v)
          (fun p d => { d with privateKey := p, flags := { d.flags with hasPrivateKey := true } }) (by rw [hd]; exact hSet_dev _ _ hr) (fun _ => rfl)) ihr
        rwa [bind_assoc_res] at this
      rw [if_neg h3, if_neg h3]
      by_cases h4 : a = b!"peer"
      · rw [if_pos h4, if_pos h4]
        have := after_spec (k := fun c => readCmdLoop env c rest) (kh := fun h => hCmdLoop oom env h rest) _ (hCmdPeer_spec oom env v hcr0) ihr
        rwa [bind_assoc_res] at this
      rw [if_neg h4, if_neg h4]
      by_cases h5 : (a = b!"remove" && h.lastPeer.isSome) = true
      · rw [if_pos h5, if_pos h5]
        rw [Bool.and_eq_true] at h5
        exact hRemove_spec (oom := oom) hcr0 h5.2 _ _ (fun m' c' r => ih (v :: rest) (by simp at hn ⊢; omega) r)
      rw [if_neg h5, if_neg h5]
      by_cases h6 : (a = b!"endpoint" && h.lastPeer.isSome) = true
      · rw [if_pos h6, if_pos h6]
        rw [Bool.and_eq_true] at h6
        obtain ⟨init, ⟨y, p, l⟩, rfl⟩ := hlast h6.2 (a' := x) (d' := d) hrest.1
        have := after_spec (k := fun c => readCmdLoop env c rest) (kh := fun h => hCmdLoop oom env h rest) _ (endpoint_op (oom := oom) env v hd hr hc hrest) ihr
        rwa [bind_assoc_res] at this
      rw [if_neg h6, if_neg h6]
      by_cases h7 : (a = b!"allowed-ips" && h.lastPeer.isSome) = true
      · rw [if_pos h7, if_pos h7]
        rw [Bool.and_eq_true] at h7
        have := after_spec (k := fun c => readCmdLoop env c rest) (kh := fun h => hCmdLoop oom env h rest) _ (hCmdIps_spec oom env v hcr0 h7.2) ihr
        rwa [bind_assoc_res] at this
      rw [if_neg h7, if_neg h7]
      by_cases h8 : (a = b!"persistent-keepalive" && h.lastPeer.isSome) = true
      · rw [if_pos h8, if_pos h8]
        rw [Bool.and_eq_true] at h8
        obtain ⟨init, ⟨y, p, l⟩, rfl⟩ := hlast h8.2 (a' := x) (d' := d) hrest.1
        have := after_spec (k := fun c => readCmdLoop env c rest) (kh := fun h => hCmdLoop oom env h rest) _ (peer_op (oom := oom) hd hr hc hrest (parseKeepalive env v)
          (fun k p => { p with keepalive := k, flags := { p.flags with hasKeepalive := true } }) (fun _ => rfl)) ihr
        rwa [bind_assoc_res] at this
      rw [if_neg h8, if_neg h8]
      by_cases h9 : (a = b!"preshared-key" && h.lastPeer.isSome) = true
      · rw [if_pos h9, if_pos h9]
        rw [Bool.and_eq_true] at h9
        obtain ⟨init, ⟨y, p, l⟩, rfl⟩ := hlast h9.2 (a' := x) (d' := d) hrest.1
        have := after_spec (k := fun c => readCmdLoop env c rest) (kh := fun h => hCmdLoop oom env h rest) _ (peer_op (oom := oom) hd hr hc hrest (parseKeyfile env v)
          (fun k p => { p with presharedKey := k, flags := { p.flags with hasPresharedKey := true } }) (fun _ => rfl)) ihr
        rwa [bind_assoc_res] at this
      rw [if_neg h9, if_neg h9]
      exact err_spec hcr0

/-- A new device in a heap. -/
theorem Rep.new {m : Mem} (hb : ∀ x, m.brk ≤ x → m.cell x = none) (d : Device) : Rep m.cell ⟨upd m.cell m.brk (some (.dev d none)), m.brk + 1⟩ m.brk d [] := by
  refine ⟨⟨none, upd_self .., .nil⟩, by simp [ids], ?_, ?_, ?_⟩
  · intro x hx
    exact upd_ne _ _ (by simpa [ids] using hx)
  · intro x hx
    simp [ids] at hx
    rw [hx]
    exact hb _ (Nat.le_refl _)
  · intro x hx
    have hx : m.brk + 1 ≤ x := hx
    show upd m.cell m.brk _ x = none
    rw [upd_ne _ _ (by omega), hb x (by omega)]

/-- How a command with a heap may end when the one without ends with `r`. -/
def Ends (oom : Nat → Bool) (base : Nat → Option Cell) (r : Run) : Res ((Nat × List IpcCall) × Mem) → Prop
  | .ok ((st, calls), m) => m.cell = base ∧ (r = ⟨.ok st, calls⟩ ∨ (∃ n, oom n = true) ∧ st = 1 ∧ ∀ d, .set d ∉ calls)
  | .exit1 => r = ⟨.ok 1, []⟩
  | .running => r = ⟨.running, []⟩
  | .fail => False
  | .ub => r.end_ = .ub

/-- A pointer to a device that was read, or NULL. -/
def Reads (oom : Nat → Bool) (base : Nat → Option Cell) (r : Res Device) : Res (Ptr × Mem) → Prop
  | .ok (some a, m) => ∃ d ps, r = .ok (absDev d ps) ∧ Rep base m a d ps
  | .ok (none, m) => (r = .fail ∨ ∃ n, oom n = true) ∧ m.cell = base ∧ ∀ x, m.brk ≤ x → m.cell x = none
  | .exit1 => r = .exit1
  | .running => r = .running
  | .fail => False
  | .ub => False

/-- config.c:578-650 -/
theorem hReadCmd_spec (oom : Nat → Bool) (env : Env) (argv : List CStr) (m : Mem) (hb : ∀ x, m.brk ≤ x → m.cell x = none) :
    Reads oom m.cell ((configReadCmd env argv).bind fun c => .ok c.device) (hReadCmd oom env argv m) := by
  unfold hReadCmd
  rcases halloc_cases oom (.dev {} none) m with ⟨ho, he⟩ | ⟨ho, he⟩
  · rw [hm_bind he]
    exact ⟨.inr ⟨_, ho⟩, rfl, fun x hx => hb x (by have : m.brk + 1 ≤ x := hx; omega)⟩
  · rw [hm_bind he]
    simp only [reduceCtorEq, if_false]
    have hcr : CtxRep m.cell ⟨upd m.cell m.brk (some (.dev {} none)), m.brk + 1⟩ { device := some m.brk } { device := {} } :=
      ⟨m.brk, {}, [], rfl, .new hb {}, rfl, rfl, rfl, rfl, rfl, rfl, rfl, by simp⟩
    have := hCmdLoop_spec oom env argv.length argv (Nat.le_refl _) hcr
    revert this
    rw [hm_bind_def, configReadCmd]
    cases hCmdLoop oom env { device := some m.brk } argv ⟨upd m.cell m.brk (some (.dev {} none)), m.brk + 1⟩ with
    | ok r =>
      obtain ⟨⟨b, h'⟩, m'⟩ := r
      rw [okb ((b, h'), m')]
      cases b with
      | true =>
        rintro ⟨hdev, c', hc', a', d', ps', hd', r1, hab, -⟩
        rw [hc', hm_pure]
        simp only [if_true]
        rw [hd']
        exact ⟨d', ps', by rw [← hab], r1⟩
      | false =>
        rintro ⟨h1, h2, h3⟩
        rw [hm_pure]
        simp only [Bool.false_eq_true, if_false]
        exact ⟨h1.imp_left fun e => by rw [e], h2, h3⟩
    | exit1 => intro h1; simp only [Outcome', Reads] at h1 ⊢; rw [h1]
    | running => intro h1; simp only [Outcome', Reads] at h1 ⊢; rw [h1]
    | fail => exact False.elim
    | ub => exact False.elim

/-- set.c:15-44 -/
theorem hSetMain_spec (oom : Nat → Bool) (env : Env) (ipc : Ipc) (argv : List CStr) (m : Mem) (hb : ∀ x, m.brk ≤ x → m.cell x = none) :
    Ends oom m.cell (setMain env ipc argv) (hSetMain oom env ipc argv m) ∧ hSetMain oom env ipc argv m ≠ .ub := by
  match argv with
  | [] => exact ⟨⟨rfl, .inl rfl⟩, by simp [hSetMain, hm_pure]⟩
  | [_] => exact ⟨⟨rfl, .inl rfl⟩, by simp [hSetMain, hm_pure]⟩
  | [_, _] => exact ⟨⟨rfl, .inl rfl⟩, by simp [hSetMain, hm_pure]⟩
  | _ :: iface :: a :: rest =>
    have := hReadCmd_spec oom env (a :: rest) m hb
    revert this
    unfold hSetMain setMain
    simp only
    rw [hm_bind_def]
    cases hReadCmd oom env (a :: rest) m with
    | ok r =>
      obtain ⟨p, m'⟩ := r
      rw [okb (p, m')]
      cases p with
      | some x =>
        rintro ⟨d, ps, h1, r1⟩
        simp only [reduceCtorEq, if_false]
        obtain ⟨m2, e2, r2, -⟩ := r1.onDevice (fun d => { d with name := copyName iface })
        rw [hm_bind e2, hm_bind r2.read, hm_bind r2.free, hm_pure]
        refine ⟨⟨rfl, .inl ?_⟩, by simp⟩
        cases hc : configReadCmd env (a :: rest) with
        | ok c =>
          rw [hc, okb] at h1
          have hc' : c.device = absDev d ps := by injection h1
          have hx : absDev { d with name := copyName iface } ps = { c.device with name := copyName iface } := by rw [hc']; rfl
          rw [hx]
          simp only [sendDevice]
          split <;> rfl
        | _ => rw [hc] at h1; cases h1
      | none =>
        rintro ⟨h1, h2, -⟩
        simp only [if_true]
        refine ⟨⟨h2, ?_⟩, by simp [hm_pure]⟩
        rcases h1 with h1 | h1
        · refine .inl ?_
          revert h1
          cases configReadCmd env (a :: rest) <;> simp [Res.bind]
        · exact .inr ⟨h1, rfl, by simp⟩
    | exit1 =>
      intro h1
      refine ⟨?_, by simp⟩
      revert h1
      cases configReadCmd env (a :: rest) <;> simp [Res.bind, Reads, Ends]
    | running =>
      intro h1
      refine ⟨?_, by simp⟩
      revert h1
      cases configReadCmd env (a :: rest) <;> simp [Res.bind, Reads, Ends]
    | fail => exact False.elim
    | ub => exact False.elim

end WG
