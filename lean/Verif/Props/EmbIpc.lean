import Verif.Proof.EmbIpc
import Verif.Spec.EmbIpc
import Verif.Props.IpcList
/-!
C68: the interface functions of the embeddable library (contrib/embeddable-wg-library/wireguard.c): `wg_set_device`, `wg_get_device`, `wg_list_device_names`,
`wg_add_device`, `wg_del_device`.
-/
namespace WG.Props
open WG.Spec WG

/-! ### Reading an interface -/

/-- An attempt that ends with a whole dump of the interface (as C31 says), `whole`. -/
def Dumps (g : GetEnv) (whole : DevDump) : Prop :=
  g.calloc = true ∧ (∃ id, (mnlgOpen b!"wireguard" g.opening).1 = .ok (.ok id)) ∧ g.sendErr = none ∧
  ∃ (ds : List (List UInt8 × List UInt8)) (ms : List NlMsg) (fs : List DevDump), g.recvs = ds.map (fun d => .msg d.1 d.2) ∧ (∀ d ∈ ds, (d.1 ++ d.2).length < 2 ^ 30) ∧
    Dump g.seq.toNat g.opening.sock.portid (ds.map (·.1)) ms ∧ List.Forall₂ (fun m f => readDevDump (m.body.drop 4) = some f) ms fs ∧ FragmentsOf whole fs ∧
    (whole.peers.map PeerDump.key).Nodup

/-- An attempt that is interrupted: by a signal while sending, or by a change of the interface during the dump. -/
def Cut (g : GetEnv) : Prop :=
  g.calloc = true ∧ (∃ id, (mnlgOpen b!"wireguard" g.opening).1 = .ok (.ok id)) ∧
  (g.sendErr = some 4 ∨ g.sendErr = none ∧ ∃ (ds : List (List UInt8 × List UInt8)) (ms : List NlMsg), g.recvs = ds.map (fun d => .msg d.1 d.2) ∧
    (∀ d ∈ ds, (d.1 ++ d.2).length < 2 ^ 30) ∧ Interrupted g.seq.toNat g.opening.sock.portid (ds.map (·.1)) ms ∧ ∀ m ∈ ms, ∃ f, readDevDump (m.body.drop 4) = some f)

theorem fits {size : Nat} {name : CStr} (hl : name.length ≤ 15) (hsz : 40 ≤ size) : ¬ Emb.afterStrz 20 name > size := by
  simp only [Emb.afterStrz, align4]; omega

/-- C68. `wg_get_device` does what `wg` does when it reads an interface (C31, C63), as long as it is not interrupted: it sends the same, releases the same, and returns the same device, or an error
if and only if `wg` does (not always the same number). -/
theorem c68_get_like_wg (size : Nat) (name : CStr) (hl : name.length ≤ 15) (hsz : 40 ≤ size) (env : Nat → GetEnv) (i fuel : Nat) (hS : (env i).sendErr ≠ some 0) (code : Int)
    (dev : Option Device) (ev : List NlEv) (h : kernelGetDevice name env 1 i = (.ok (code, dev), ev)) :
    ∃ code', Emb.getDevice size name env (fuel + 1) i 0 = (.ok (code', dev), ev) ∧ (code = 0 ↔ code' = 0) ∧ code' ≤ 0 := by
  rw [kernelGetDevice, if_neg (by omega)] at h
  rw [Emb.getDevice]
  cases hc : (env i).calloc with
  | false =>
    simp only [hc, Bool.not_false, if_true, Prod.mk.injEq, Res.ok.injEq] at h ⊢
    obtain ⟨⟨rfl, rfl⟩, rfl⟩ := h
    exact ⟨-12, ⟨⟨rfl, rfl⟩, rfl⟩, by simp, by decide⟩
  | true =>
    simp only [hc, Bool.not_true, Bool.false_eq_true, if_false] at h ⊢
    cases hO : mnlgOpen b!"wireguard" (env i).opening with
    | mk r evs =>
      rw [hO] at h
      match r, h with
      | .ok (.error e), h =>
        simp only [Prod.mk.injEq, Res.ok.injEq] at h ⊢
        obtain ⟨⟨rfl, rfl⟩, rfl⟩ := h
        exact ⟨-e, ⟨⟨rfl, rfl⟩, rfl⟩, by simp, by omega⟩
      | .ub, h => simp at h
      | .running, h => simp at h
      | .fail, h => simp at h
      | .exit1, h => simp at h
      | .ok (.ok id), h =>
        simp only at h ⊢
        rw [if_neg (fits hl hsz)]
        cases hs : (env i).sendErr with
        | some e =>
          rw [hs] at h hS
          simp only at h ⊢
          have he : e ≠ 0 := fun h => hS (by rw [h])
          by_cases h4 : e = 4
          · rw [if_pos h4] at h; simp [kernelGetDevice] at h
          · rw [if_neg h4] at h
            rw [if_pos he, if_neg h4]
            simp only [Prod.mk.injEq, Res.ok.injEq] at h ⊢
            obtain ⟨⟨rfl, rfl⟩, rfl⟩ := h
            exact ⟨-e, ⟨⟨rfl, rfl⟩, rfl⟩, by simp, by omega⟩
        | none =>
          rw [hs] at h
          simp only at h ⊢
          have hrel := Emb.recvRun_rel (env i).seq.toNat (env i).opening.sock.portid (env i).recvs (0, ({} : NlDevice)) (0, ({} : NlDevice)) ⟨by decide, by decide, rfl⟩
          cases hR : recvRun (env i).seq.toNat (env i).opening.sock.portid (some readDeviceCb) (env i).recvs (0, ({} : NlDevice)) with
          | ok v =>
            obtain ⟨r, errno, d⟩ := v
            rw [hR] at h hrel
            cases hR' : recvRun (env i).seq.toNat (env i).opening.sock.portid (some Emb.readDeviceCb) (env i).recvs (0, ({} : NlDevice)) with
            | ok v' =>
              obtain ⟨r', errno', d'⟩ := v'
              rw [hR'] at hrel
              obtain ⟨rfl, he, hd⟩ := hrel
              dsimp only at he hd
              subst hd
              simp only at h ⊢
              by_cases hr : r < 0
              · rw [if_pos hr] at h ⊢
                have n0 : ∀ e : Nat, (if e ≠ 0 then e else 22) ≠ 0 := by intro e; split <;> omega
                have n4 : ∀ e : Nat, (if e ≠ 0 then e else 22) = 4 ↔ e = 4 := by intro e; split <;> omega
                by_cases h4 : errno = 4
                · rw [if_pos ((n4 _).2 h4)] at h; simp [kernelGetDevice] at h
                · rw [if_neg (fun e => h4 ((n4 _).1 e))] at h
                  rw [if_pos (n0 _), if_neg (fun e => h4 (he.2 ((n4 _).1 e)))]
                  simp only [Prod.mk.injEq, Res.ok.injEq] at h ⊢
                  obtain ⟨⟨rfl, rfl⟩, rfl⟩ := h
                  refine ⟨_, ⟨⟨rfl, rfl⟩, rfl⟩, ?_, by omega⟩
                  have := n0 errno; have := n0 errno'
                  constructor <;> intro h <;> omega
              · rw [if_neg hr] at h ⊢
                cases hC : coalesce d.peers with
                | none => rw [hC] at h; simp at h
                | some ps =>
                  rw [hC] at h
                  simp only [ne_eq, not_true_eq_false, if_false, Prod.mk.injEq, Res.ok.injEq] at h ⊢
                  obtain ⟨⟨rfl, rfl⟩, rfl⟩ := h
                  exact ⟨0, ⟨⟨rfl, rfl⟩, rfl⟩, by simp, by decide⟩
            | _ => rw [hR'] at hrel; cases hrel
          | _ => rw [hR] at h; simp at h

theorem kernelGetDevice_one (name : CStr) (env : Nat → GetEnv) (i : Nat) : kernelGetDevice name env 1 i = kernelGetDevice name (fun _ => env i) 1 i := by
  simp only [kernelGetDevice]

theorem Dumps.kernel {env : Nat → GetEnv} {i : Nat} {whole : DevDump} (h : Dumps (env i) whole) (name : CStr) (hl : name.length ≤ 15) :
    (kernelGetDevice name env 1 i).1 = .ok (0, some whole.device) := by
  obtain ⟨h1, ⟨id, h2⟩, h3, ds, ms, fs, h4, h5, h6, h7, h8, h9⟩ := h
  rw [kernelGetDevice_one, c63_get_is_the_dump name (fun _ => env i) (fun _ => ⟨_, h2⟩) 1 i]
  refine c31_dump_read name hl _ i 0 ?_ h3 ds h4 h5 ms h6 whole fs h7 h8 h9
  simp [GetEnv.attempt, h1, h2]

/-- C68. From a whole dump, however it is cut into messages, `wg_get_device` reads exactly what it says. -/
theorem c68_get_dump (size : Nat) (name : CStr) (hl : name.length ≤ 15) (hsz : 40 ≤ size) (env : Nat → GetEnv) (i fuel : Nat) (whole : DevDump) (h : Dumps (env i) whole) :
    (Emb.getDevice size name env (fuel + 1) i 0).1 = .ok (0, some whole.device) := by
  have hk := h.kernel name hl
  obtain ⟨c', h1, h2, -⟩ := c68_get_like_wg size name hl hsz env i fuel (by rw [h.2.2.1]; simp) 0 (some whole.device) (kernelGetDevice name env 1 i).2 (Prod.ext hk rfl)
  rw [h1, h2.1 rfl]

/-- C68. If the kernel refuses (no such interface, no permission), `wg_get_device` returns this error and no device. -/
theorem c68_get_refused (size : Nat) (name : CStr) (hl : name.length ≤ 15) (hsz : 40 ≤ size) (env : Nat → GetEnv) (i fuel : Nat) (hc : (env i).calloc = true) (id : UInt16)
    (ho : (mnlgOpen b!"wireguard" (env i).opening).1 = .ok (.ok id)) (hs : (env i).sendErr = none) (data stale : List UInt8) (hb : (data ++ stale).length < 2 ^ 30) (more : List Recv)
    (hr : (env i).recvs = .msg data stale :: more) (m : NlMsg) (rest : List NlMsg) (hms : messages data = some (m :: rest)) (error : Nat) (h0 : error ≠ 0) (h4 : error ≠ 4)
    (hm : m.IsError (env i).seq.toNat (env i).opening.sock.portid error) :
    (Emb.getDevice size name env (fuel + 1) i 0).1 = .ok (-(error : Int), none) := by
  rw [Emb.getDevice]
  cases hO : mnlgOpen b!"wireguard" (env i).opening with
  | mk r evs =>
    rw [hO] at ho
    dsimp only at ho
    subst ho
    simp only [hc, Bool.not_true, Bool.false_eq_true, if_false, hs]
    rw [if_neg (fits hl hsz), hr, recvRun_refused (some Emb.readDeviceCb) _ _ data stale hb more m rest hms error h0 hm]
    simp [h0, h4]

/-- With an error left from before, no device is ever returned. -/
theorem get_never (size : Nat) (name : CStr) (env : Nat → GetEnv) (hS : ∀ i, (env i).sendErr ≠ some 0) : ∀ fuel i c d, (Emb.getDevice size name env fuel i 4).1 ≠ .ok (c, some d) := by
  intro fuel
  induction fuel with
  | zero => intro i c d; simp [Emb.getDevice]
  | succ fuel ih =>
    intro i c d
    rw [Emb.getDevice]
    cases hc : (env i).calloc with
    | false => simp
    | true =>
      simp only [Bool.not_true, Bool.false_eq_true, if_false]
      cases hO : mnlgOpen b!"wireguard" (env i).opening with
      | mk r evs =>
        match r with
        | .ok (.error e) => simp
        | .ub => simp
        | .running => simp
        | .fail => simp
        | .exit1 => simp
        | .ok (.ok id) =>
          simp only
          by_cases hf : Emb.afterStrz 20 name > size
          · rw [if_pos hf]; simp
          rw [if_neg hf]
          have out : ∀ (e : Nat) (x y : List NlEv), (if e = 4 then ((Emb.getDevice size name env fuel (i + 1) e).1, x) else ((.ok (-(e : Int), none) : Res (Int × Option Device)), y)).1 ≠
              .ok (c, some d) := by
            intro e x y
            by_cases he : e = 4
            · rw [if_pos he, he]; exact ih _ _ _
            · rw [if_neg he]; simp
          cases hs : (env i).sendErr with
          | some e =>
            simp only
            rw [if_pos (fun h => hS i (by rw [hs, h]))]
            exact out _ _ _
          | none =>
            simp only
            cases hR : recvRun (env i).seq.toNat (env i).opening.sock.portid (some Emb.readDeviceCb) (env i).recvs (0, ({} : NlDevice)) with
            | ok v =>
              obtain ⟨r, errno, dv⟩ := v
              simp only
              by_cases hr : r < 0
              · rw [if_pos hr, if_pos (by split <;> omega)]
                exact out _ _ _
              · rw [if_neg hr]
                cases hC : coalesce dv.peers with
                | none => simp
                | some ps =>
                  simp only
                  rw [if_pos (by decide)]
                  exact out 4 _ []
            | _ => simp

/-- A cut attempt leads to the next one, with the error left. -/
theorem Cut.step {size : Nat} {name : CStr} (hl : name.length ≤ 15) (hsz : 40 ≤ size) {env : Nat → GetEnv} {i : Nat} (h : Cut (env i)) (fuel ret : Nat) :
    (Emb.getDevice size name env (fuel + 1) i ret).1 = (Emb.getDevice size name env fuel (i + 1) 4).1 := by
  obtain ⟨h1, ⟨id, h2⟩, h3⟩ := h
  rw [Emb.getDevice]
  cases hO : mnlgOpen b!"wireguard" (env i).opening with
  | mk r evs =>
    rw [hO] at h2
    dsimp only at h2
    subst h2
    simp only [h1, Bool.not_true, Bool.false_eq_true, if_false]
    rw [if_neg (fits hl hsz)]
    rcases h3 with h3 | ⟨h3, ds, ms, h4, h5, h6, h7⟩
    · simp [h3]
    · simp only [h3]
      have hrel := Emb.recvRun_rel (env i).seq.toNat (env i).opening.sock.portid (env i).recvs (0, ({} : NlDevice)) (0, ({} : NlDevice)) ⟨by decide, by decide, rfl⟩
      rw [h4, recvRun_intr _ _ ds ms h6 h5 h7] at hrel
      rw [h4]
      cases hR' : recvRun (env i).seq.toNat (env i).opening.sock.portid (some Emb.readDeviceCb) (ds.map fun d => .msg d.1 d.2) (0, ({} : NlDevice)) with
      | ok v' =>
        obtain ⟨r', errno', d'⟩ := v'
        rw [hR'] at hrel
        obtain ⟨rfl, he, -⟩ := hrel
        have he' : errno' = 4 := he.1 rfl
        subst he'
        simp
      | _ => rw [hR'] at hrel; cases hrel

/-- A whole dump is thrown away if there is an error left. -/
theorem Dumps.step {size : Nat} {name : CStr} (hl : name.length ≤ 15) (hsz : 40 ≤ size) {env : Nat → GetEnv} {i : Nat} {whole : DevDump} (h : Dumps (env i) whole) (fuel : Nat) :
    (Emb.getDevice size name env (fuel + 1) i 4).1 = (Emb.getDevice size name env fuel (i + 1) 4).1 := by
  have h0 := c68_get_dump size name hl hsz env i 0 whole h
  obtain ⟨h1, ⟨id, h2⟩, h3, -⟩ := h
  rw [Emb.getDevice] at h0 ⊢
  cases hO : mnlgOpen b!"wireguard" (env i).opening with
  | mk r evs =>
    rw [hO] at h2 h0
    dsimp only at h2
    subst h2
    simp only [h1, Bool.not_true, Bool.false_eq_true, if_false, h3] at h0 ⊢
    rw [if_neg (fits hl hsz)] at h0 ⊢
    cases hR' : recvRun (env i).seq.toNat (env i).opening.sock.portid (some Emb.readDeviceCb) (env i).recvs (0, ({} : NlDevice)) with
    | ok v' =>
      obtain ⟨r', errno', d'⟩ := v'
      rw [hR'] at h0
      simp only at h0 ⊢
      by_cases hr : r' < 0
      · rw [if_pos hr, if_pos (by split <;> omega)] at h0
        generalize (if errno' ≠ 0 then errno' else 22) = e at h0
        by_cases he : e = 4
        · rw [if_pos he] at h0; simp [Emb.getDevice] at h0
        · rw [if_neg he] at h0; simp at h0
      · rw [if_neg hr] at h0 ⊢
        cases hC : coalesce d'.peers with
        | none => rw [hC] at h0; simp at h0
        | some ps => simp
    | _ => rw [hR'] at h0; simp at h0

/-- C68, a defect: once an attempt has been interrupted, `wg_get_device` never returns a device, however often the kernel tells everything afterwards (the error of the interrupted attempt is not
forgotten): it asks again and again, without end, as long as the kernel answers. `wg` itself returns the device of the next dump. -/
theorem c68_counterexample_interrupted (size : Nat) (name : CStr) (hl : name.length ≤ 15) (hsz : 40 ≤ size) (env : Nat → GetEnv) (hS : ∀ i, (env i).sendErr ≠ some 0) (h0 : Cut (env 0)) :
    (∀ fuel code dev, (Emb.getDevice size name env fuel 0 0).1 ≠ .ok (code, some dev)) ∧
    (∀ whole, (∀ i, Dumps (env (i + 1)) whole) →
      (∀ fuel, (Emb.getDevice size name env fuel 0 0).1 = .running) ∧ ∀ fuel, (kernelGetDevice name env (fuel + 2) 0).1 = .ok (0, some whole.device)) := by
  refine ⟨?_, ?_⟩
  · intro fuel code dev
    cases fuel with
    | zero => simp [Emb.getDevice]
    | succ fuel => rw [h0.step hl hsz]; exact get_never size name env hS fuel 1 code dev
  · intro whole hw
    refine ⟨?_, ?_⟩
    · have : ∀ fuel i, (Emb.getDevice size name env fuel (i + 1) 4).1 = .running := by
        intro fuel
        induction fuel with
        | zero => intro i; rfl
        | succ fuel ih => intro i; rw [(hw i).step hl hsz]; exact ih _
      intro fuel
      cases fuel with
      | zero => rfl
      | succ fuel => rw [h0.step hl hsz]; exact this fuel 0
    · intro fuel
      rw [c63_get_is_the_dump name env (fun i => by
        cases i with
        | zero => exact ⟨_, h0.2.1.choose_spec⟩
        | succ i => exact ⟨_, (hw i).2.1.choose_spec⟩)]
      have h1 := c31_interrupted_dump_repeated name hl (fun i => (env i).attempt) 1 (fun i hi => by
        have : i = 0 := by omega
        subst this
        obtain ⟨a1, ⟨id, a2⟩, a3⟩ := h0
        exact ⟨by simp [GetEnv.attempt, a1, a2], a3⟩) (fuel + 2) (by omega)
      rw [h1]
      obtain ⟨b1, ⟨id, b2⟩, b3, ds, ms, fs, b4, b5, b6, b7, b8, b9⟩ := hw 0
      exact c31_dump_read name hl _ 1 fuel (by simp [GetEnv.attempt, b1, b2]) b3 ds b4 b5 ms b6 whole fs b7 b8 b9

/-- C68. `wg_get_device` sends, in each of its attempts, the question for the family and then at most one request, for the interface of the given name, to the family found in this attempt. -/
theorem c68_get_requests (size : Nat) (name : CStr) (h0 : (0 : UInt8) ∉ name) (hl : name.length ≤ 15) (env : Nat → GetEnv) : ∀ fuel i ret,
    ∀ b ∈ sentBytes (Emb.getDevice size name env fuel i ret).2, ∃ j, b = familyRequest (env j).opening.seq ∨
      ∃ id, (mnlgOpen b!"wireguard" (env j).opening).1 = .ok (.ok id) ∧ readGetMessage id 1 b = some name := by
  intro fuel
  induction fuel with
  | zero => intro i ret b hb; simp [Emb.getDevice, sentBytes] at hb
  | succ fuel ih =>
    intro i ret b hb
    rw [Emb.getDevice] at hb
    cases hc : (env i).calloc with
    | false => simp [hc, sentBytes] at hb
    | true =>
      simp only [hc, Bool.not_true, Bool.false_eq_true, if_false] at hb
      have hall := c63_asks_for_the_family (env i).opening
      cases hO : mnlgOpen b!"wireguard" (env i).opening with
      | mk r evs =>
        rw [hO] at hall hb
        simp only at hall
        have hall' : ∀ b ∈ sentBytes evs, b = familyRequest (env i).opening.seq := by
          rcases hall with h | h <;> rw [h] <;> simp
        have quiet : ∀ pre post : List NlEv, sentBytes pre = [] → sentBytes post = [] → b ∈ sentBytes (pre ++ evs ++ post) → b = familyRequest (env i).opening.seq := by
          intro pre post h1 h2 h
          rw [sentBytes_append, sentBytes_append, h1, h2] at h
          exact hall' b (by simpa using h)
        match r, hO, hb with
        | .ok (.error e), _, hb => exact ⟨i, .inl (quiet _ _ rfl rfl hb)⟩
        | .ub, _, hb => exact ⟨i, .inl (quiet [.take .dev] [] rfl rfl (by rw [List.append_nil]; exact hb))⟩
        | .running, _, hb => exact ⟨i, .inl (quiet [.take .dev] [] rfl rfl (by rw [List.append_nil]; exact hb))⟩
        | .fail, _, hb => exact ⟨i, .inl (quiet [.take .dev] [] rfl rfl (by rw [List.append_nil]; exact hb))⟩
        | .exit1, _, hb => exact ⟨i, .inl (quiet [.take .dev] [] rfl rfl (by rw [List.append_nil]; exact hb))⟩
        | .ok (.ok id), hO, hb =>
          simp only at hb
          by_cases hf : Emb.afterStrz 20 name > size
          · rw [if_pos hf] at hb
            exact ⟨i, .inl (quiet [.take .dev] [] rfl rfl (by rw [List.append_nil]; exact hb))⟩
          rw [if_neg hf] at hb
          have loud : ∀ post : List NlEv, sentBytes post = [] → b ∈ sentBytes ([.take .dev] ++ evs ++ [.send (getRequest id name (env i).seq)] ++ post) →
              ∃ j, b = familyRequest (env j).opening.seq ∨ ∃ id, (mnlgOpen b!"wireguard" (env j).opening).1 = .ok (.ok id) ∧ readGetMessage id 1 b = some name := by
            intro post h2 h
            rw [sentBytes_append, sentBytes_append, sentBytes_append, h2, List.append_nil, List.mem_append, List.mem_append] at h
            rcases h with (h | h) | h
            · simp [sentBytes] at h
            · exact ⟨i, .inl (hall' b h)⟩
            · refine ⟨i, .inr ⟨id, by rw [hO], ?_⟩⟩
              simp only [sentBytes, List.filterMap_cons, List.filterMap_nil, List.mem_singleton] at h
              rw [h]
              exact readGetMessage_enc id name h0 (by omega) _
          generalize hpre : [NlEv.take .dev] ++ evs ++ [.send (getRequest id name (env i).seq)] = pre at hb loud
          have again : ∀ (e : Nat) (d : Device), b ∈ sentBytes (if e ≠ 0 then (if e = 4 then ((Emb.getDevice size name env fuel (i + 1) e).1,
              pre ++ mnlgClose ++ [.give .dev] ++ (Emb.getDevice size name env fuel (i + 1) e).2)
              else ((.ok (-(e : Int), none) : Res (Int × Option Device)), pre ++ mnlgClose ++ [.give .dev])) else (.ok (0, some d), pre ++ mnlgClose)).2 →
              ∃ j, b = familyRequest (env j).opening.seq ∨ ∃ id, (mnlgOpen b!"wireguard" (env j).opening).1 = .ok (.ok id) ∧ readGetMessage id 1 b = some name := by
            intro e d h
            by_cases he0 : e ≠ 0
            · rw [if_pos he0] at h
              by_cases he : e = 4
              · rw [if_pos he] at h
                simp only at h
                rw [sentBytes_append, List.mem_append] at h
                rcases h with h | h
                · exact loud (mnlgClose ++ [.give .dev]) rfl (by rw [← List.append_assoc]; exact h)
                · exact ih (i + 1) e b h
              · rw [if_neg he] at h
                exact loud (mnlgClose ++ [.give .dev]) rfl (by rw [← List.append_assoc]; exact h)
            · rw [if_neg he0] at h
              exact loud mnlgClose rfl h
          cases hS : (env i).sendErr with
          | some e => rw [hS] at hb; exact again e _ hb
          | none =>
            rw [hS] at hb
            simp only at hb
            cases hR : recvRun (env i).seq.toNat (env i).opening.sock.portid (some Emb.readDeviceCb) (env i).recvs (0, ({} : NlDevice)) with
            | ok v =>
              obtain ⟨r, errno, d⟩ := v
              rw [hR] at hb
              simp only at hb
              by_cases hr : r < 0
              · rw [if_pos hr] at hb; exact again _ _ hb
              · rw [if_neg hr] at hb
                cases hC : coalesce d.peers with
                | none => rw [hC] at hb; exact loud [] rfl (by rw [List.append_nil]; exact hb)
                | some ps => rw [hC] at hb; exact again _ _ hb
            | ub => rw [hR] at hb; exact loud [] rfl (by rw [List.append_nil]; exact hb)
            | fail => rw [hR] at hb; exact loud [] rfl (by rw [List.append_nil]; exact hb)
            | exit1 => rw [hR] at hb; exact loud [] rfl (by rw [List.append_nil]; exact hb)
            | running => rw [hR] at hb; exact loud [] rfl (by rw [List.append_nil]; exact hb)

theorem held_below (x : NlRes) : ∀ (evs : List NlEv) (l l' : List NlRes), held evs l = some l' → held evs (l ++ [x]) = some (l' ++ [x]) := by
  intro evs
  induction evs with
  | nil => intro l l' h; cases h; rfl
  | cons e evs ih =>
    intro l l' h
    cases e with
    | take r => exact ih _ _ h
    | give r =>
      simp only [held] at h ⊢
      split at h
      · rename_i hr
        rw [if_pos (List.mem_append_left _ hr), List.erase_append_left _ hr]
        exact ih _ _ h
      · simp at h
    | send b =>
      simp only [held] at h ⊢
      split at h
      · rename_i hr
        rw [if_pos (List.mem_append_left _ hr)]
        exact ih _ _ h
      · simp at h

/-- C68. However `wg_get_device` ends, after however many attempts, everything is released exactly once, except the device it returns. -/
theorem c68_get_releases (size : Nat) (name : CStr) (env : Nat → GetEnv) : ∀ fuel i ret,
    (∀ code dev, (Emb.getDevice size name env fuel i ret).1 = .ok (code, dev) → held (Emb.getDevice size name env fuel i ret).2 [] = some (if dev.isSome then [.dev] else [])) ∧
    held (Emb.getDevice size name env fuel i ret).2 [] ≠ none := by
  intro fuel
  induction fuel with
  | zero => intro i ret; simp [Emb.getDevice, held]
  | succ fuel ih =>
    intro i ret
    rw [Emb.getDevice]
    cases hc : (env i).calloc with
    | false =>
      simp only [Bool.not_false, if_true]
      refine ⟨?_, by simp [held]⟩
      intro code dev h
      cases h; rfl
    | true =>
      simp only [Bool.not_true, Bool.false_eq_true, if_false]
      cases hO : mnlgOpen b!"wireguard" (env i).opening with
      | mk r evs =>
        rcases mnlgOpen_cases _ _ _ hO with ⟨e, rfl, h, -⟩ | ⟨rfl, h⟩
        · simp only
          have : held ([.take .dev] ++ evs ++ [.give .dev]) [] = some [] := by
            rw [held_append, held_append]
            have h' : held evs [.dev] = some [.dev] := held_below .dev evs [] [] h
            simp [held, h']
          refine ⟨?_, by rw [this]; simp⟩
          intro code dev h
          cases h
          exact this
        · have ho : held ([.take .dev] ++ openEvs (env i).opening) [] = some [.fd, .nl, .buf, .nlg, .dev] := rfl
          have hnot : ∀ r' : Res (Int × Option Device), (∀ v, r' ≠ .ok v) → (∀ code dev, r' = Res.ok (code, dev) → held ([.take .dev] ++ openEvs (env i).opening) [] =
              some (if Option.isSome (α := Device) dev then [.dev] else [])) ∧ held ([.take .dev] ++ openEvs (env i).opening) [] ≠ none := by
            intro r' hr'
            refine ⟨?_, by rw [ho]; simp⟩
            intro code dev h
            exact absurd h (hr' _)
          cases hR : recvRun (env i).opening.seq.toNat (env i).opening.sock.portid (some (famCb (env i).opening.ctrlMax)) (env i).opening.recvs (0, 0) with
          | ub => rw [hR] at h; simp only at h; subst h; exact hnot .ub (by simp)
          | fail => rw [hR] at h; simp only at h; subst h; exact hnot .running (by simp)
          | exit1 => rw [hR] at h; simp only at h; subst h; exact hnot .running (by simp)
          | running => rw [hR] at h; simp only at h; subst h; exact hnot .running (by simp)
          | ok v =>
            obtain ⟨_, _, id⟩ := v
            rw [hR] at h
            simp only at h
            subst h
            simp only
            by_cases hf : Emb.afterStrz 20 name > size
            · rw [if_pos hf]; exact hnot .ub (by simp)
            rw [if_neg hf]
            have hs : held ([.take .dev] ++ openEvs (env i).opening ++ [.send (getRequest id name (env i).seq)]) [] = some [.fd, .nl, .buf, .nlg, .dev] := by
              rw [held_append, ho]; rfl
            have hcl : held ([.take .dev] ++ openEvs (env i).opening ++ [.send (getRequest id name (env i).seq)] ++ mnlgClose) [] = some [.dev] := by
              rw [held_append, hs]; rfl
            have hcl' : held ([.take .dev] ++ openEvs (env i).opening ++ [.send (getRequest id name (env i).seq)] ++ mnlgClose ++ [.give .dev]) [] = some [] := by
              rw [held_append, hcl]; rfl
            generalize [NlEv.take .dev] ++ openEvs (env i).opening ++ [.send (getRequest id name (env i).seq)] = pre at hs hcl hcl' ⊢
            have again : ∀ (e : Nat) (d : Device), let r := (if e ≠ 0 then (if e = 4 then ((Emb.getDevice size name env fuel (i + 1) e).1,
                  pre ++ mnlgClose ++ [.give .dev] ++ (Emb.getDevice size name env fuel (i + 1) e).2)
                else ((.ok (-(e : Int), none) : Res (Int × Option Device)), pre ++ mnlgClose ++ [.give .dev])) else (.ok (0, some d), pre ++ mnlgClose));
                (∀ code dev, r.1 = .ok (code, dev) → held r.2 [] = some (if dev.isSome then [.dev] else [])) ∧ held r.2 [] ≠ none := by
              intro e d
              simp only
              by_cases he0 : e ≠ 0
              · rw [if_pos he0]
                by_cases he : e = 4
                · rw [if_pos he]
                  simp only
                  rw [held_append, hcl', Option.bind_some]
                  exact ih (i + 1) e
                · rw [if_neg he]
                  refine ⟨?_, by rw [hcl']; simp⟩
                  intro code dev h
                  cases h
                  exact hcl'
              · rw [if_neg he0]
                refine ⟨?_, by rw [hcl]; simp⟩
                intro code dev h
                cases h
                rw [hcl]; rfl
            cases hS : (env i).sendErr with
            | some e => exact again e _
            | none =>
              simp only
              have hnot : ∀ r' : Res (Int × Option Device), (∀ v, r' ≠ .ok v) → (∀ code dev, r' = Res.ok (code, dev) → held pre [] = some (if Option.isSome (α := Device) dev then [.dev] else [])) ∧ held pre [] ≠ none := by
                intro r' hr'
                refine ⟨?_, by rw [hs]; simp⟩
                intro code dev h
                exact absurd h (hr' _)
              cases hR : recvRun (env i).seq.toNat (env i).opening.sock.portid (some Emb.readDeviceCb) (env i).recvs (0, ({} : NlDevice)) with
              | ok v =>
                obtain ⟨r, errno, d⟩ := v
                simp only
                by_cases hr : r < 0
                · rw [if_pos hr]; exact again _ _
                · rw [if_neg hr]
                  cases hC : coalesce d.peers with
                  | none => exact hnot .ub (by simp)
                  | some ps => exact again _ _
              | ub => exact hnot .ub (by simp)
              | fail => exact hnot .fail (by simp)
              | exit1 => exact hnot .exit1 (by simp)
              | running => exact hnot .running (by simp)

/-! ### Setting an interface -/

/-- C68. `wg_set_device`: if the family is found, exactly the messages are sent that C29 and C30 are about, all for the interface of this name and to this family; if not, nothing
is sent to it and the error is returned. -/
theorem c68_set (o : OpenEnv) (size : Nat) (h1 : 272 ≤ size) (h2 : size < 65536) (junk : UInt8 × UInt8) (seq : Nat → UInt32) (send : Nat → Option Nat)
    (hs : ∀ i, send i ≠ some 0) (replies : Nat → List Recv) (d : Device) (hn : d.name.length ≤ 15) (hip : ∀ p ∈ d.peers, ∀ a ∈ p.allowedIPs, a.cidr.toNat ≤ addrBits a.addr) (fuel : Nat) :
    (∀ e, (mnlgOpen b!"wireguard" o).1 = .ok (.error e) → (Emb.setDevice o size junk seq send replies d fuel).1 = .ok (-(e : Int)) ∧
      ∀ b ∈ sentBytes (Emb.setDevice o size junk seq send replies d fuel).2, b = familyRequest o.seq) ∧
    ((∃ code, (Emb.setDevice o size junk seq send replies d fuel).1 = .ok code) → held (Emb.setDevice o size junk seq send replies d fuel).2 [] = some []) ∧
    ∀ id, (mnlgOpen b!"wireguard" o).1 = .ok (.ok id) → ∃ msgs, sentBytes (Emb.setDevice o size junk seq send replies d fuel).2 = familyRequest o.seq :: msgs ∧
      (∀ m ∈ msgs, ∃ req, readSetMessage id 1 m = some (d.name, req)) ∧
      ((Emb.setDevice o size junk seq send replies d fuel).1, msgs) =
        setLoop { size := size, junk := junk, id := id, version := 1 } o.sock.portid seq send replies d fuel 0 .start := by
  obtain ⟨a, b, c⟩ := c63_set_requests_go_to_the_family o size h1 h2 junk seq send hs replies d hn hip fuel
  exact ⟨fun e he => ⟨a e he, b (.inl ⟨e, he⟩)⟩, (c63_set_releases o size junk seq send replies d fuel).1, c⟩

/-! ### Listing -/

theorem forEachName_of_walk (mem : List UInt8) : ∀ fuel i l, walkNames mem fuel i = .ok l → Emb.forEachName mem fuel i = .ok (l.map (·.1)) := by
  intro fuel
  induction fuel with
  | zero => intro i l h; cases h
  | succ fuel ih =>
    intro i l h
    rw [walkNames] at h
    rw [Emb.forEachName]
    cases hm : memStr mem i with
    | ok s =>
      rw [hm, okb] at h
      rw [okb]
      by_cases hs : s = []
      · rw [if_pos hs] at h ⊢
        cases h; rfl
      · rw [if_neg hs] at h ⊢
        cases hn : memStr mem (i + s.length + 1) with
        | ok next =>
          rw [hn, okb] at h
          cases hw : walkNames mem fuel (i + s.length + 1) with
          | ok l' =>
            rw [hw, okb] at h
            cases h
            rw [ih _ _ hw, okb]; rfl
          | _ => rw [hw] at h; cases h
        | _ => rw [hn] at h; cases h
    | _ => rw [hm] at h; cases h

/-- C68. `wg_list_device_names` returns a buffer in which `wg_for_each_device_name` visits exactly the names of the WireGuard interfaces, in order, however the kernel cuts its answer; or, if memory is
short, NULL and the error. -/
theorem c68_names (heap : Heap) (hF : ∀ n e, heap.fail n = some e → 0 < e ∧ e ≠ 4) (strdup : Bool) (o : LinkOpen) (h1 : o.calloc = true) (h2 : o.sock.calloc = true)
    (h3 : o.sock.socketErr = none) (h4 : o.sock.bindErr = none) (h5 : o.sendErr = none)
    (ds : List (List UInt8 × List UInt8)) (hr : o.recvs = ds.map fun d => .msg d.1 d.2) (hb : ∀ d ∈ ds, (d.1 ++ d.2).length < 2 ^ 30) (ms : List NlMsg)
    (hd : Dump o.seq.toNat o.sock.portid (ds.map (·.1)) ms) (links : List Link)
    (hl : List.Forall₂ (fun m k => readLink m.body = some k) ms links) (hsz : (nameBuffer (wgNames links)).length < 2 ^ 61) :
    (∃ mem, (Emb.listDeviceNames heap strdup o).1 = .ok (some mem, 0) ∧ ∀ fuel, (wgNames links).length < fuel → Emb.forEachName mem fuel 0 = .ok (wgNames links)) ∨
    ∃ e : Nat, (Emb.listDeviceNames heap strdup o).1 = .ok (none, (e : Int)) ∧ ((∃ n, heap.fail n = some e) ∨ strdup = false ∧ e = 12) := by
  have hk := c53_kernel_interfaces heap hF { err := none, seq := o.seq.toNat, portid := o.sock.portid, recvs := o.recvs } rfl ds hr hb ms (.inl hd) links hl hsz
  have he : kernelList heap { err := none, seq := o.seq.toNat, portid := o.sock.portid, recvs := o.recvs } {} = linkRun heap o.seq.toNat o.sock.portid o.recvs (0, {}) := rfl
  rw [he] at hk
  have hL : ∀ v, linkRun heap o.seq.toNat o.sock.portid o.recvs (0, {}) = .ok v → (kernelLinks heap o {}).1 = .ok v := by
    intro v hv
    simp [kernelLinks, mnlOpen, h1, h2, h3, h4, h5, hv]
  have hE : ∀ v, (kernelLinks heap o {}).1 = .ok v → (Emb.listDeviceNames heap strdup o).1 =
      .ok (if v.1 ≠ 0 then (none, -v.1) else match v.2.buf with | some b => (some b, 0) | none => if strdup then (some [0], 0) else (none, 12)) := by
    intro v hv
    obtain ⟨ret, l⟩ := v
    rw [Emb.listDeviceNames]
    cases hK : kernelLinks heap o {} with
    | mk r ev =>
      rw [hK] at hv
      dsimp only at hv
      subst hv
      simp only
      by_cases hz : ret ≠ 0
      · rw [if_pos hz, if_pos hz]
      · rw [if_neg hz, if_neg hz]
        cases l.buf with
        | some b => rfl
        | none => rfl
  rcases hk with ⟨l, hk, hc⟩ | ⟨n, e, l, hf, hk⟩
  · rw [hE _ (hL _ hk)]
    simp only [ne_eq, not_true_eq_false, if_false]
    cases hbuf : l.buf with
    | some b =>
      refine .inl ⟨b, rfl, ?_⟩
      intro fuel hfuel
      obtain ⟨junk, -, hw⟩ := hc.walk (wgNames_names hl) fuel hfuel
      rw [hbuf, Option.getD_some] at hw
      rw [forEachName_of_walk _ _ _ _ hw, withNext_names]
    | none =>
      simp only
      cases strdup with
      | true =>
        refine .inl ⟨[0], rfl, ?_⟩
        intro fuel hfuel
        obtain ⟨junk, -, hw⟩ := hc.walk (wgNames_names hl) fuel hfuel
        rw [hbuf, Option.getD_none] at hw
        rw [forEachName_of_walk _ _ _ _ hw, withNext_names]
      | false => exact .inr ⟨12, rfl, .inr ⟨rfl, rfl⟩⟩
  · rw [hE _ (hL _ hk)]
    have := (hF n e hf).1
    refine .inr ⟨e, ?_, .inl ⟨n, hf⟩⟩
    simp only [ne_eq]
    rw [if_pos (by omega), Int.neg_neg]

/-- C68. Listing sends only the request for all links and releases everything; when a step before the answer fails, the result is NULL and its error. -/
theorem c68_names_outside (heap : Heap) (strdup : Bool) (o : LinkOpen) :
    (∀ b ∈ sentBytes (Emb.listDeviceNames heap strdup o).2, b = allLinksRequest o.seq) ∧
    ((∃ v, (Emb.listDeviceNames heap strdup o).1 = .ok v) → held (Emb.listDeviceNames heap strdup o).2 [] = some []) ∧
    ∀ e, (if !o.calloc || !o.sock.calloc then some 12 else (o.sock.socketErr.or o.sock.bindErr).or o.sendErr) = some e → e ≠ 0 →
      (Emb.listDeviceNames heap strdup o).1 = .ok (none, (e : Int)) := by
  obtain ⟨a, b, -, -⟩ := c63_links heap o {}
  have hev : (Emb.listDeviceNames heap strdup o).2 = (kernelLinks heap o {}).2 ∧ ((∃ v, (Emb.listDeviceNames heap strdup o).1 = .ok v) → ∃ v, (kernelLinks heap o {}).1 = .ok v) := by
    rw [Emb.listDeviceNames]
    cases hK : kernelLinks heap o {} with
    | mk r ev =>
      cases r with
      | ok v =>
        obtain ⟨ret, l⟩ := v
        simp only
        by_cases hz : ret ≠ 0
        · rw [if_pos hz]; exact ⟨rfl, fun _ => ⟨_, rfl⟩⟩
        · rw [if_neg hz]
          cases l.buf with
          | some b => exact ⟨rfl, fun _ => ⟨_, rfl⟩⟩
          | none => exact ⟨rfl, fun _ => ⟨_, rfl⟩⟩
      | _ => simp
  refine ⟨by rw [hev.1]; exact a, fun h => by rw [hev.1]; exact b (hev.2 h), ?_⟩
  intro e he h0
  have hk : (kernelLinks heap o {}).1 = .ok (-(e : Int), {}) := by
    simp only [kernelLinks, mnlOpen]
    cases h1 : o.calloc with
    | false => simp [h1] at he; simp [← he]
    | true =>
      cases h2 : o.sock.calloc with
      | false => simp [h1, h2] at he; simp [← he]
      | true =>
        simp only [h1, h2, Bool.not_true, Bool.or_self, Bool.false_eq_true, if_false] at he ⊢
        cases h3 : o.sock.socketErr with
        | some x => simp [h3] at he; simp [he]
        | none =>
          cases h4 : o.sock.bindErr with
          | some x => simp [h3, h4] at he; simp [he]
          | none =>
            simp [h3, h4] at he
            simp [he]
  rw [Emb.listDeviceNames]
  cases hK : kernelLinks heap o {} with
  | mk r ev =>
    rw [hK] at hk
    dsimp only at hk
    subst hk
    simp only
    rw [if_pos (by omega), Int.neg_neg]

/-! ### Adding and deleting -/

theorem readLinkChange_enc (name : CStr) (h0 : (0 : UInt8) ∉ name) (hl : name.length < 65530) (add : Bool) (seq : UInt32) :
    readLinkChange (Emb.linkChange name add seq) = some (add, name) := by
  have hbody : ∀ c : NlCtx, nestEnd (putAttr (nestStart c (putAttr [] 3 (name ++ [0])) 18) 1 (b!"wireguard" ++ [0])) (putAttr [] 3 (name ++ [0])).length =
      encAttrs [(3, name ++ [0]), (0x8012, encAttrs [(1, b!"wireguard" ++ [0])])] := by
    intro c
    rw [putAttr_eq _ 1, ← encAttrs_one, nestEnd_eq _ _ _ _ (encAttrs_dvd _), putAttr_eq, List.nil_append, encAttrs_cons (3, name ++ [0]), encAttrs_single (0x8012, _)]
  have hattr : attrs (encAttrs [(3, name ++ [0]), (0x8012, encAttrs [(1, b!"wireguard" ++ [0])])]) = some [(3, name ++ [0]), (18, encAttrs [(1, b!"wireguard" ++ [0])])] := by
    rw [attrs_enc]
    · rfl
    · intro a ha
      simp only [List.mem_cons, List.not_mem_nil, or_false] at ha
      rcases ha with rfl | rfl
      · simp only [List.length_append, List.length_singleton]; omega
      · decide +kernel
  have hlen : (encAttrs [(3, name ++ [0]), (0x8012, encAttrs [(1, b!"wireguard" ++ [0])])]).length < 131072 := by
    rw [encAttrs_cons, encAttrs_single, List.length_append, encAttr_length, encAttr_length]
    have : (encAttrs [(1, b!"wireguard" ++ [0])]).length = 16 := by decide +kernel
    simp only [List.length_append, List.length_singleton, this, align4]
    omega
  have e : Emb.linkChange name add seq = u32b (32 + (encAttrs [(3, name ++ [0]), (0x8012, encAttrs [(1, b!"wireguard" ++ [0])])]).length) ++ u16b (if add then 16 else 17) ++
      u16b (if add then 0x605 else 5) ++ u32b seq.toNat ++ [0, 0, 0, 0] ++ List.replicate 16 0 ++ encAttrs [(3, name ++ [0]), (0x8012, encAttrs [(1, b!"wireguard" ++ [0])])] := by
    rw [Emb.linkChange, hbody]
  generalize encAttrs [(3, name ++ [0]), (0x8012, encAttrs [(1, b!"wireguard" ++ [0])])] = body at e hattr hlen
  have hL : (Emb.linkChange name add seq).length = 32 + body.length := by rw [e]; simp; omega
  have e1 : (Emb.linkChange name add seq).take 4 = u32b (32 + body.length) := by rw [e]; rfl
  have e2 : ((Emb.linkChange name add seq).drop 4).take 2 = u16b (if add then 16 else 17) := by rw [e]; rfl
  have e3 : ((Emb.linkChange name add seq).drop 6).take 2 = u16b (if add then 0x605 else 5) := by rw [e]; rfl
  have e4 : ((Emb.linkChange name add seq).drop 16).take 16 = List.replicate 16 0 := by rw [e]; rfl
  have e5 : (Emb.linkChange name add seq).drop 32 = body := by rw [e]; rfl
  have hk : attrs (encAttrs [(1, b!"wireguard" ++ [0])]) = some [(1, b!"wireguard" ++ [0])] := by decide +kernel
  rw [readLinkChange, e1, e2, e3, e4, e5, hL, le_u32b _ (by omega), if_pos ⟨by omega, rfl, rfl⟩, hattr]
  simp only
  have hn : (name ++ [0]).getLast? = some 0 ∧ (0 : UInt8) ∉ (name ++ [0]).dropLast ∧ attrs (encAttrs [(1, b!"wireguard" ++ [0])]) = some [(1, b!"wireguard" ++ [0])] := by
    refine ⟨by simp, by simpa using h0, hk⟩
  rw [if_pos hn]
  cases add with
  | true =>
    simp only [if_true]
    rw [le_u16b _ (by omega), le_u16b _ (by omega), if_pos ⟨rfl, rfl⟩]
    simp
  | false =>
    simp only [Bool.false_eq_true, if_false]
    rw [le_u16b _ (by omega), le_u16b _ (by omega), if_neg (by omega), if_pos ⟨rfl, rfl⟩]
    simp

/-- Adding and deleting, in one. -/
theorem change_outside (size : Nat) (hsz : size < 65536) (name : CStr) (h0 : (0 : UInt8) ∉ name) (add : Bool) (o : LinkOpen) :
    (sentBytes (Emb.addDelIface size name add o).2).length ≤ 1 ∧ (∀ b ∈ sentBytes (Emb.addDelIface size name add o).2, readLinkChange b = some (add, name)) ∧
    ((∃ v, (Emb.addDelIface size name add o).1 = .ok v) → held (Emb.addDelIface size name add o).2 [] = some []) ∧ held (Emb.addDelIface size name add o).2 [] ≠ none := by
  simp only [Emb.addDelIface, mnlOpen, mnlClose]
  cases h1 : o.calloc with
  | false => simp [sentBytes, held]
  | true =>
    cases h2 : o.sock.calloc with
    | false => simp [sentBytes, held]
    | true =>
      cases h3 : o.sock.socketErr with
      | some e => simp [sentBytes, held]
      | none =>
        cases h4 : o.sock.bindErr with
        | some e => simp [sentBytes, held]
        | none =>
          simp only [Bool.not_true, Bool.false_eq_true, if_false]
          by_cases hf : Emb.afterStrz (Emb.afterStrz 32 name + 4) b!"wireguard" > size
          · rw [if_pos hf]; simp [sentBytes, held]
          rw [if_neg hf]
          have hr := readLinkChange_enc name h0 (by simp only [Emb.afterStrz, align4] at hf; omega) add o.seq
          cases h5 : o.sendErr with
          | some e => simp [sentBytes, held, hr]
          | none =>
            cases h6 : o.recvs with
            | nil => simp [sentBytes, held, hr]
            | cons r more =>
              cases r with
              | err e => simp [sentBytes, held, hr]
              | msg data stale =>
                simp only
                cases h7 : (rdNum (data ++ stale) 8 4).bind fun seq =>
                  cbRunWith (σ := Unit) defaultCtl (data ++ stale) seq o.sock.portid none (data.length + 1) 0 data.length 1 (0, ()) with
                | ok v => simp [sentBytes, held, hr]
                | _ => simp [sentBytes, held, hr]

/-- C68. `wg_add_device` and `wg_del_device` send at most one request, which is to add or delete an interface of this name and of the kind `wireguard`, and release everything, however they end. -/
theorem c68_change_requests (size : Nat) (hsz : size < 65536) (name : CStr) (h0 : (0 : UInt8) ∉ name) (o : LinkOpen) :
    ((sentBytes (Emb.addDevice size name o).2).length ≤ 1 ∧ (∀ b ∈ sentBytes (Emb.addDevice size name o).2, readLinkChange b = some (true, name)) ∧
      ((∃ v, (Emb.addDevice size name o).1 = .ok v) → held (Emb.addDevice size name o).2 [] = some [])) ∧
    (sentBytes (Emb.delDevice size name o).2).length ≤ 1 ∧ (∀ b ∈ sentBytes (Emb.delDevice size name o).2, readLinkChange b = some (false, name)) ∧
      ((∃ v, (Emb.delDevice size name o).1 = .ok v) → held (Emb.delDevice size name o).2 [] = some []) := by
  obtain ⟨a, b, c, -⟩ := change_outside size hsz name h0 true o
  obtain ⟨a', b', c', -⟩ := change_outside size hsz name h0 false o
  exact ⟨⟨a, b, c⟩, a', b', c'⟩

/-- The socket is there and the request has been sent. -/
def Sent (o : LinkOpen) : Prop := o.calloc = true ∧ o.sock.calloc = true ∧ o.sock.socketErr = none ∧ o.sock.bindErr = none ∧ o.sendErr = none

theorem change_fits {size : Nat} {name : CStr} (hl : name.length ≤ 15) (hsz : 72 ≤ size) : ¬ Emb.afterStrz (Emb.afterStrz 32 name + 4) b!"wireguard" > size := by
  have : List.length b!"wireguard" = 9 := rfl
  simp only [Emb.afterStrz, align4, this]; omega

theorem default_error (data stale : List UInt8) (hm : (data ++ stale).length < 2 ^ 30) (portid : Nat) {m : NlMsg} {rest : List NlMsg} (h1 : messages data = some (m :: rest)) (error : Nat)
    (hd : m.IsError m.seq portid error) : ((rdNum (data ++ stale) 8 4).bind fun seq => cbRunWith (σ := Unit) defaultCtl (data ++ stale) seq portid none (data.length + 1) 0 data.length 1 (0, ())) =
      .ok (if error = 0 then 0 else -1, error, ()) := by
  obtain ⟨hat, hin, -⟩ := msgAt_of (data := data) (stale := stale) (h := 0) (by rw [List.drop_zero]; exact h1)
  have hl := hat.inside
  have hs := hat.seq
  rw [Nat.zero_add] at hs
  rw [rdNum_ok (by omega), hs, okb]
  have hlen : data.length < 2 ^ 30 := by rw [List.length_append] at hm; omega
  obtain ⟨d1, d2, d3, d4, d5, d6, d7⟩ := hd
  have hfl : ¬ m.flags / 16 % 2 = 1 := by
    have h4 := d2
    rw [Nat.testBit_eq_decide_div_mod_eq] at h4
    simpa using h4
  have hcode : ((data ++ stale).drop (0 + 16)).take 4 = m.body.take 4 := by
    conv_rhs => rw [← hat.body]
    rw [List.take_take, Nat.min_eq_left (by omega)]
  rw [cbRunWith, if_neg (by omega), rdNum_ok (by omega), hat.len, okb, toInt32_of (by omega) (by omega), if_neg (by omega), rdNum_ok (by omega), hat.portid, okb, d4,
    if_neg (by simp [idOk]), rdNum_ok (by omega), hat.seq, okb, if_neg (by simp [idOk]), rdNum_ok (by omega), hat.flags, okb,
    if_neg hfl, rdNum_ok (by omega), hat.type, okb, d1]
  simp only
  rw [if_neg (by omega), if_neg (by omega)]
  rw [defaultCtl, if_neg (by omega), ctlCb, if_pos rfl, if_neg (by omega), rdNum_ok (by omega), hcode, okb]
  rw [toInt32_neg _ error (le_take_lt m.body 4) d6 d7]
  by_cases h0 : error = 0
  · subst h0; simp
  · have : ¬ (-(error : Int) = 0) := by omega
    simp [h0]

theorem change_answer (size : Nat) (name : CStr) (hl : name.length ≤ 15) (hsz : 72 ≤ size) (add : Bool) (o : LinkOpen) (hs : Sent o) (data stale : List UInt8) (more : List Recv)
    (hr : o.recvs = .msg data stale :: more) (hb : (data ++ stale).length < 2 ^ 30) (m : NlMsg) (rest : List NlMsg) (hms : messages data = some (m :: rest)) (error : Nat)
    (hm : m.IsError m.seq o.sock.portid error) : (Emb.addDelIface size name add o).1 = .ok (-(error : Int)) := by
  obtain ⟨h1, h2, h3, h4, h5⟩ := hs
  have := default_error data stale hb o.sock.portid hms error hm
  simp only [Emb.addDelIface, mnlOpen, h1, h2, h3, h4, h5, hr, Bool.not_true, Bool.false_eq_true, if_false]
  rw [if_neg (change_fits hl hsz)]
  simp only [this]
  by_cases h0 : error = 0
  · subst h0; simp
  · simp [h0]

/-- C68. The result of adding or deleting is what the kernel answers: 0 if it acknowledges, else its error; an error of a system call before is returned, too. -/
theorem c68_change_answer (size : Nat) (name : CStr) (hl : name.length ≤ 15) (hsz : 72 ≤ size) (o : LinkOpen) :
    (∀ data stale more m rest error, Sent o → o.recvs = .msg data stale :: more → (data ++ stale).length < 2 ^ 30 → messages data = some (m :: rest) →
      m.IsError o.seq.toNat o.sock.portid error →
      (Emb.addDevice size name o).1 = .ok (-(error : Int)) ∧ (Emb.delDevice size name o).1 = .ok (-(error : Int))) ∧
    (∀ e more, Sent o → o.recvs = .err e :: more → (Emb.addDevice size name o).1 = .ok (-(e : Int)) ∧ (Emb.delDevice size name o).1 = .ok (-(e : Int))) ∧
    ∀ e, (if !o.calloc || !o.sock.calloc then some 12 else (o.sock.socketErr.or o.sock.bindErr).or o.sendErr) = some e →
      (Emb.addDevice size name o).1 = .ok (-(e : Int)) ∧ (Emb.delDevice size name o).1 = .ok (-(e : Int)) := by
  refine ⟨?_, ?_, ?_⟩
  · intro data stale more m rest error hs hr hb hms hm
    have hq : m.seq = o.seq.toNat := hm.2.2.1
    rw [← hq] at hm
    exact ⟨change_answer size name hl hsz true o hs data stale more hr hb m rest hms error hm, change_answer size name hl hsz false o hs data stale more hr hb m rest hms error hm⟩
  · intro e more ⟨h1, h2, h3, h4, h5⟩ hr
    have hf := change_fits hl hsz
    constructor <;> simp only [Emb.addDevice, Emb.delDevice, Emb.addDelIface, mnlOpen, h1, h2, h3, h4, h5, hr, Bool.not_true, Bool.false_eq_true, if_false] <;> rw [if_neg hf]
  · intro e he
    have key : ∀ add, (Emb.addDelIface size name add o).1 = .ok (-(e : Int)) := by
      intro add
      simp only [Emb.addDelIface, mnlOpen]
      cases h1 : o.calloc with
      | false => simp [h1] at he; simp [← he]
      | true =>
        cases h2 : o.sock.calloc with
        | false => simp [h1, h2] at he; simp [← he]
        | true =>
          simp only [h1, h2, Bool.not_true, Bool.or_self, Bool.false_eq_true, if_false] at he ⊢
          cases h3 : o.sock.socketErr with
          | some x => simp [h3] at he; simp [he]
          | none =>
            cases h4 : o.sock.bindErr with
            | some x => simp [h3, h4] at he; simp [he]
            | none =>
              simp [h3, h4] at he
              simp only [he]
              rw [if_neg (change_fits hl hsz)]
    exact ⟨key true, key false⟩

/-- C68, a defect: the sequence number is not compared with that of the request (the request has been overwritten by the answer): an acknowledgement or error of any other request is taken as the
answer. -/
theorem c68_counterexample_other_answer (size : Nat) (name : CStr) (hl : name.length ≤ 15) (hsz : 72 ≤ size) (o : LinkOpen) (hs : Sent o) (data stale : List UInt8) (more : List Recv)
    (hr : o.recvs = .msg data stale :: more) (hb : (data ++ stale).length < 2 ^ 30) (m : NlMsg) (rest : List NlMsg) (hms : messages data = some (m :: rest)) (error : Nat) (seq : Nat)
    (_ : seq ≠ o.seq.toNat) (hm : m.IsError seq o.sock.portid error) : (Emb.addDevice size name o).1 = .ok (-(error : Int)) := by
  have hq : m.seq = seq := hm.2.2.1
  rw [← hq] at hm
  exact change_answer size name hl hsz true o hs data stale more hr hb m rest hms error hm

/-- C68, a defect: an answer that is no acknowledgement at all, here an empty one, is taken as success. -/
theorem c68_counterexample_no_answer (size : Nat) (name : CStr) (hl : name.length ≤ 15) (hsz : 72 ≤ size) (o : LinkOpen) (hs : Sent o) (stale : List UInt8) (h12 : 12 ≤ stale.length) (more : List Recv)
    (hr : o.recvs = .msg [] stale :: more) : (Emb.addDevice size name o).1 = .ok 0 := by
  obtain ⟨h1, h2, h3, h4, h5⟩ := hs
  have hk : (rdNum ([] ++ stale) 8 4).bind (fun seq => cbRunWith (σ := Unit) defaultCtl ([] ++ stale) seq o.sock.portid none (([] : List UInt8).length + 1) 0 ([] : List UInt8).length 1 (0, ())) =
      .ok (1, 0, ()) := by
    rw [rdNum_ok (by simpa using h12), okb]; rfl
  simp only [Emb.addDevice, Emb.addDelIface, mnlOpen, h1, h2, h3, h4, h5, hr, Bool.not_true, Bool.false_eq_true, if_false]
  rw [if_neg (change_fits hl hsz)]
  simp only [hk]
  rfl

/-- C68, a defect: the length of the name is not checked. With a name that is longer than the buffer, all three write behind it. -/
theorem c68_counterexample_long_name (size : Nat) (name : CStr) (hl : size ≤ name.length) :
    (∀ (env : Nat → GetEnv) (id : UInt16) (fuel ret : Nat), (env 0).calloc = true → (mnlgOpen b!"wireguard" (env 0).opening).1 = .ok (.ok id) → (Emb.getDevice size name env (fuel + 1) 0 ret).1 = .ub) ∧
    ∀ o : LinkOpen, o.calloc = true → o.sock.calloc = true → o.sock.socketErr = none → o.sock.bindErr = none →
      (Emb.addDevice size name o).1 = .ub ∧ (Emb.delDevice size name o).1 = .ub := by
  refine ⟨?_, ?_⟩
  · intro env id fuel ret hc ho
    rw [Emb.getDevice]
    cases hO : mnlgOpen b!"wireguard" (env 0).opening with
    | mk r evs =>
      rw [hO] at ho
      dsimp only at ho
      subst ho
      simp only [hc, Bool.not_true, Bool.false_eq_true, if_false]
      rw [if_pos (by simp only [Emb.afterStrz, align4]; omega)]
  · intro o h1 h2 h3 h4
    have hf : Emb.afterStrz (Emb.afterStrz 32 name + 4) b!"wireguard" > size := by simp only [Emb.afterStrz, align4]; omega
    constructor <;> simp only [Emb.addDevice, Emb.delDevice, Emb.addDelIface, mnlOpen, h1, h2, h3, h4, Bool.not_true, Bool.false_eq_true, if_false] <;> rw [if_pos hf]

/-! ### Examples -/

theorem goodDumps (i : Nat) : Dumps (goodGets (i + 1)) dumpDevice := by
  show Dumps (goodGets 1) dumpDevice
  refine ⟨rfl, ⟨30, by decide +kernel⟩, rfl, [(dumpFirst, List.replicate 40 255), (dumpSecond ++ dumpDone, [])], [dumpNl dumpFirst, dumpNl dumpSecond], dumpFragments, rfl, by decide +kernel,
    ?_, ?_, ?_, by decide +kernel⟩
  · exact .more dumpFirst _ [dumpNl dumpFirst] [dumpNl dumpSecond] (by decide +kernel) (by simp) (by decide +kernel)
      (.last (dumpSecond ++ dumpDone) [] [dumpNl dumpSecond] [] ⟨3, 2, 5, 77, [0, 0, 0, 0]⟩ (by decide +kernel) (by decide +kernel) (by decide +kernel))
  · exact .cons (by decide +kernel) (.cons (by decide +kernel) .nil)
  · refine ⟨by decide +kernel, by decide +kernel, by simp [dumpFragments], ?_⟩
    exact .cut false _ _ _ rfl (by simp) (.whole true _ (.whole false _ .nil))

/-- The device of two peers, in two messages. -/
example : (Emb.getDevice 8192 b!"wg0" goodGets 1 1 0).1 = .ok (0, some dumpDevice.device) :=
  c68_get_dump 8192 b!"wg0" (by decide) (by decide) goodGets 1 0 dumpDevice (goodDumps 0)

/-- A signal while the first request is sent: `wg` reads the device in the second attempt, the library never. -/
example : (∀ fuel, (Emb.getDevice 8192 b!"wg0" goodGets fuel 0 0).1 = .running) ∧ ∀ fuel, (kernelGetDevice b!"wg0" goodGets (fuel + 2) 0).1 = .ok (0, some dumpDevice.device) :=
  (c68_counterexample_interrupted 8192 b!"wg0" (by decide) (by decide) goodGets (fun i => by cases i <;> simp [goodGets]) ⟨rfl, ⟨30, by decide +kernel⟩, .inl rfl⟩).2 dumpDevice goodDumps

/-- No such interface (ENODEV). -/
def noDev : Nat → GetEnv := fun _ => { opening := goodOpen, seq := 5, recvs := [.msg (dumpMsg 2 0 ([237, 255, 255, 255] ++ List.replicate 16 0)) []] }

example : (Emb.getDevice 8192 b!"wg9" noDev 1 0 0).1 = .ok (-19, none) :=
  c68_get_refused 8192 b!"wg9" (by decide) (by decide) noDev 0 0 rfl 30 (by decide +kernel) rfl _ [] (by decide +kernel) [] rfl
    ⟨2, 0, 5, 77, [237, 255, 255, 255] ++ List.replicate 16 0⟩ [] (by decide +kernel) 19 (by decide) (by decide) (by decide +kernel)

/-- What is sent and held. -/
example : (sentBytes (Emb.getDevice 8192 b!"wg0" goodGets 1 1 0).2).map (readGetMessage 30 1) = [none, some b!"wg0"] ∧ held (Emb.getDevice 8192 b!"wg0" goodGets 1 1 0).2 [] = some [.dev] ∧
    held (Emb.getDevice 8192 b!"wg9" noDev 1 0 0).2 [] = some [] := by
  decide +kernel

/-- Four interfaces, two of them WireGuard. -/
def goodLinks : LinkOpen := { sock := { portid := 77 }, seq := 5, recvs := [.msg linkFirst [1, 2, 3], .msg linkSecond []] }

example : ∃ mem, (Emb.listDeviceNames goodHeap true goodLinks).1 = .ok (some mem, 0) ∧ ∀ fuel, 2 < fuel → Emb.forEachName mem fuel 0 = .ok [b!"wg0", b!"wg1"] := by
  rcases c68_names goodHeap (by simp [goodHeap]) true goodLinks rfl rfl rfl rfl rfl [(linkFirst, [1, 2, 3]), (linkSecond, [])] rfl (by decide +kernel) linkMs linkDump linkKs linkRead
    (by decide +kernel) with ⟨mem, h1, h2⟩ | ⟨e, -, ⟨n, h⟩ | ⟨h, -⟩⟩
  · exact ⟨mem, h1, h2⟩
  · simp [goodHeap] at h
  · cases h

/-- None at all, and a socket that cannot be had (EMFILE). -/
example : (Emb.listDeviceNames goodHeap true { goodLinks with recvs := [.msg dumpDone []] }).1 = .ok (some [0], 0) ∧
    (Emb.listDeviceNames goodHeap true { goodLinks with sock := { socketErr := some 24 } }).1 = .ok (none, 24) := by
  decide +kernel

/-- An acknowledged request. -/
def ackedChange : LinkOpen := { sock := { portid := 77 }, seq := 5, recvs := [.msg (ackMessage 5 77 (Vector.replicate 16 0)) []] }

example : (Emb.addDevice 8192 b!"wg0" ackedChange).1 = .ok 0 ∧ (Emb.delDevice 8192 b!"wg0" ackedChange).1 = .ok 0 := by
  simpa using (c68_change_answer 8192 b!"wg0" (by decide) (by decide) ackedChange).1 _ [] [] ⟨2, 0, 5, 77, List.replicate 20 0⟩ [] 0 ⟨rfl, rfl, rfl, rfl, rfl⟩ rfl (by decide +kernel)
    (by decide +kernel) (by decide +kernel)

example : (sentBytes (Emb.addDevice 8192 b!"wg0" ackedChange).2).map readLinkChange = [some (true, b!"wg0")] ∧
    (sentBytes (Emb.delDevice 8192 b!"wg0" ackedChange).2).map readLinkChange = [some (false, b!"wg0")] ∧ held (Emb.addDevice 8192 b!"wg0" ackedChange).2 [] = some [] := by
  decide +kernel

/-- The interface exists already (EEXIST is 17). -/
example : (Emb.addDevice 8192 b!"wg0" { ackedChange with recvs := [.msg (dumpMsg 2 0 ([239, 255, 255, 255] ++ List.replicate 16 0)) []] }).1 = .ok (-17) := by
  decide +kernel

/-- The acknowledgement of request number 4, when number 5 has been sent. -/
example : (Emb.addDevice 8192 b!"wg0" { ackedChange with recvs := [.msg (ackMessage 4 77 (Vector.replicate 16 0)) []] }).1 = .ok 0 :=
  c68_counterexample_other_answer 8192 b!"wg0" (by decide) (by decide) { ackedChange with recvs := [.msg (ackMessage 4 77 (Vector.replicate 16 0)) []] } ⟨rfl, rfl, rfl, rfl, rfl⟩ _ [] [] rfl
    (by decide +kernel) ⟨2, 0, 4, 77, List.replicate 20 0⟩ [] (by decide +kernel) 0 4 (by decide) (by decide +kernel)

end WG.Props
