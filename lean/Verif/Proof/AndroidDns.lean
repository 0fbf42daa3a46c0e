import Verif.Proof.AndroidParts
/-!
DNS and MTU in a successful `up` of wg-quick for Android.
-/
namespace WG.Android
open WG.Spec WG.Spec.Android WG.Spec.Quick
open WG.Quick (suffixes words_unique isNameserver isNameserver_iff mtuIn devIn endpointHost endpointHost_iff endpointHost_none mtuIn_iff mtuIn_none devIn_iff devIn_none)

/-! ### DNS -/

def quote (w : CStr) : CStr := b!"'" ++ w ++ b!"' "

/-- The bytes that the entries take in a buffer. -/
def room (ws : List CStr) : Nat := (ws.map fun w => w.length + 3).sum

theorem strncat_ok {len : Nat} {buf s : CStr} (h1 : s.length + 1 ≤ 4 * len) (h2 : buf.length + s.length ≤ 4 * len) : strncat len buf s = some (buf ++ s) := by
  unfold strncat
  rw [List.take_of_length_le (by omega)]
  dsimp only
  rw [if_pos (by rw [List.length_append]; omega)]

theorem snprintf_ok {size : Nat} {s : CStr} (h : s.length + 1 ≤ size) : snprintf size s = s := List.take_of_length_le (by omega)

theorem dnsStep_ok {len : Nat} {d : Dns} {w : CStr} (hw : w.length < len) (h1 : d.shellServers.length + (w.length + 3) ≤ 4 * len)
    (h2 : d.shellDomains.length + (w.length + 3) ≤ 4 * len) (h3 : d.textServers.length + (w.length + 3) ≤ 4 * len) (h4 : d.textDomains.length + (w.length + 3) ≤ 4 * len) :
    ∃ ts td, ts.length ≤ d.textServers.length + (w.length + 3) ∧ td.length ≤ d.textDomains.length + (w.length + 3) ∧
      dnsStep len d w = some (if isNameserver w then { d with shellServers := d.shellServers ++ quote w, textServers := ts, textDomains := td, servers := d.servers ++ [w] }
        else { d with shellDomains := d.shellDomains ++ quote w, textServers := ts, textDomains := td, domains := d.domains ++ [w] }) := by
  have hq : (b!"'" ++ w ++ b!"' ").length = w.length + 3 := by simp
  have hx : ∀ t : CStr, (if t = [] then w else b!", " ++ w).length ≤ w.length + 2 := by
    intro t
    by_cases h : t = []
    · rw [if_pos h]; omega
    · rw [if_neg h]; simp
  unfold dnsStep
  by_cases hn : isNameserver w = true
  · rw [if_pos hn]
    refine ⟨d.textServers ++ (if d.textServers = [] then w else b!", " ++ w), d.textDomains, by rw [List.length_append]; have := hx d.textServers; omega, by omega, ?_⟩
    rw [snprintf_ok (by omega), snprintf_ok (by have := hx d.textServers; omega), strncat_ok (by omega) (by omega),
      strncat_ok (by have := hx d.textServers; omega) (by have := hx d.textServers; omega), if_pos hn]
    rfl
  · rw [if_neg hn]
    refine ⟨d.textServers, d.textDomains ++ (if d.textDomains = [] then w else b!", " ++ w), by omega, by rw [List.length_append]; have := hx d.textDomains; omega, ?_⟩
    rw [snprintf_ok (by omega), snprintf_ok (by have := hx d.textDomains; omega), strncat_ok (by omega) (by omega),
      strncat_ok (by have := hx d.textDomains; omega) (by have := hx d.textDomains; omega), if_neg hn]
    rfl

theorem dnsLoop_ok {len : Nat} : ∀ (ws : List CStr) (d : Dns), (∀ w ∈ ws, w.length < len) → d.shellServers.length + room ws ≤ 4 * len → d.shellDomains.length + room ws ≤ 4 * len →
    d.textServers.length + room ws ≤ 4 * len → d.textDomains.length + room ws ≤ 4 * len →
    ∃ r, dnsLoop len d ws = some r ∧ r.shellServers = d.shellServers ++ (ws.filter isNameserver).flatMap quote ∧
      r.shellDomains = d.shellDomains ++ (ws.filter (!isNameserver ·)).flatMap quote ∧ r.servers = d.servers ++ ws.filter isNameserver ∧
      r.domains = d.domains ++ ws.filter (!isNameserver ·)
  | [], d, _, _, _, _, _ => ⟨d, rfl, by simp, by simp, by simp, by simp⟩
  | w :: ws, d, hw, h1, h2, h3, h4 => by
    simp only [room, List.map_cons, List.sum_cons] at h1 h2 h3 h4
    have hr : room ws = (ws.map fun w => w.length + 3).sum := rfl
    obtain ⟨ts, td, l1, l2, hs⟩ := dnsStep_ok (hw w (by simp)) (d := d) (by omega) (by omega) (by omega) (by omega)
    simp only [dnsLoop, hs, Option.bind_some]
    have hq : (quote w).length = w.length + 3 := by simp [quote]
    by_cases hn : isNameserver w = true
    · rw [if_pos hn]
      obtain ⟨r, g1, g2, g3, g4, g5⟩ := dnsLoop_ok ws { d with shellServers := d.shellServers ++ quote w, textServers := ts, textDomains := td, servers := d.servers ++ [w] }
        (fun x hx => hw x (by simp [hx])) (by dsimp only; rw [List.length_append]; omega) (by dsimp only; omega) (by dsimp only; omega) (by dsimp only; omega)
      refine ⟨r, g1, ?_, ?_, ?_, ?_⟩
      · rw [g2, List.filter_cons_of_pos hn]; simp
      · rw [g3, List.filter_cons_of_neg (by simp [hn])]
      · rw [g4, List.filter_cons_of_pos hn]; simp
      · rw [g5, List.filter_cons_of_neg (by simp [hn])]
    · rw [if_neg hn]
      have hn' : (!isNameserver w) = true := by simpa using hn
      obtain ⟨r, g1, g2, g3, g4, g5⟩ := dnsLoop_ok ws { d with shellDomains := d.shellDomains ++ quote w, textServers := ts, textDomains := td, domains := d.domains ++ [w] }
        (fun x hx => hw x (by simp [hx])) (by dsimp only; omega) (by dsimp only; rw [List.length_append]; omega) (by dsimp only; omega) (by dsimp only; omega)
      refine ⟨r, g1, ?_, ?_, ?_, ?_⟩
      · rw [g2, List.filter_cons_of_neg hn]
      · rw [g3, List.filter_cons_of_pos (p := (!isNameserver ·)) hn']; simp
      · rw [g4, List.filter_cons_of_neg hn]
      · rw [g5, List.filter_cons_of_pos (p := (!isNameserver ·)) hn']; simp

/-- Words and the bytes between them. -/
theorem strtokAux_length (sep : UInt8 → Bool) (p : CStr → Bool) : ∀ (s cur : CStr), (((strtokAux sep cur s).filter p).map fun w => w.length + 1).sum ≤ cur.length + s.length + 1
  | [], cur => by
    simp only [strtokAux]
    by_cases h : cur = []
    · rw [if_pos h]; simp
    · rw [if_neg h]
      by_cases hp : p cur = true
      · rw [List.filter_cons_of_pos hp]; simp
      · rw [List.filter_cons_of_neg hp]; simp
  | c :: t, cur => by
    simp only [strtokAux, List.length_cons]
    by_cases hs : sep c = true
    · rw [if_pos hs]
      have ih := strtokAux_length sep p t []
      rw [List.length_nil] at ih
      by_cases h : cur = []
      · rw [if_pos h]; omega
      · rw [if_neg h]
        by_cases hp : p cur = true
        · rw [List.filter_cons_of_pos hp, List.map_cons, List.sum_cons]; omega
        · rw [List.filter_cons_of_neg hp]; omega
    · rw [if_neg hs]
      have ih := strtokAux_length sep p t (cur ++ [c])
      rw [List.length_append, List.length_singleton] at ih
      omega

theorem strtokAux_ne (sep : UInt8 → Bool) : ∀ (s cur : CStr), ∀ w ∈ strtokAux sep cur s, w ≠ []
  | [], cur => by
    simp only [strtokAux]
    by_cases h : cur = []
    · rw [if_pos h]; simp
    · rw [if_neg h]; simpa using h
  | c :: t, cur => by
    simp only [strtokAux]
    by_cases hs : sep c = true
    · rw [if_pos hs]
      by_cases h : cur = []
      · rw [if_pos h]; exact strtokAux_ne sep t []
      · rw [if_neg h]
        intro w hw
        rcases List.mem_cons.1 hw with rfl | hw
        · exact h
        · exact strtokAux_ne sep t [] w hw
    · rw [if_neg hs]; exact strtokAux_ne sep t _

theorem room_le {ws : List CStr} (h : ∀ w ∈ ws, w ≠ []) : room ws ≤ 2 * (ws.map fun w => w.length + 1).sum := by
  induction ws with
  | nil => simp [room]
  | cons w ws ih =>
    have := ih fun x hx => h x (by simp [hx])
    have h1 : 0 < w.length := List.length_pos_iff.2 (h w (by simp))
    simp only [room, List.map_cons, List.sum_cons] at *
    omega

theorem word_le {ws : List CStr} {w : CStr} (h : w ∈ ws) : w.length + 1 ≤ (ws.map fun w => w.length + 1).sum := by
  induction ws with
  | nil => cases h
  | cons x ws ih =>
    rw [List.map_cons, List.sum_cons]
    rcases List.mem_cons.1 h with rfl | h
    · omega
    · have := ih h; omega

/-- The texts fit into their buffers, and nothing of them is cut off but perhaps the last blank. -/
theorem dnsLoop_entries (s : CStr) (hs : s ≠ []) : let ws := (strtok listSeps s).filter unquoted
    ∃ r, dnsLoop s.length {} ws = some r ∧ Quoted (ws.filter isNameserver) r.shellServers ∧ Quoted (ws.filter (!isNameserver ·)) r.shellDomains ∧
      r.servers = ws.filter isNameserver ∧ r.domains = ws.filter (!isNameserver ·) := by
  intro ws
  have hsum : (ws.map fun w => w.length + 1).sum ≤ s.length + 1 := by
    have := strtokAux_length listSeps unquoted s []
    simpa [ws, strtok] using this
  have hne : ∀ w ∈ ws, w ≠ [] := fun w hw => strtokAux_ne listSeps s [] w (List.mem_filter.1 hw).1
  have hpos : 0 < s.length := List.length_pos_iff.2 hs
  have hroom := room_le hne
  by_cases hall : ∀ w ∈ ws, w.length < s.length
  · obtain ⟨r, g1, g2, g3, g4, g5⟩ := dnsLoop_ok ws {} hall (by show 0 + _ ≤ _; omega) (by show 0 + _ ≤ _; omega) (by show 0 + _ ≤ _; omega) (by show 0 + _ ≤ _; omega)
    exact ⟨r, g1, .inl (g2.trans (List.nil_append _)), .inl (g3.trans (List.nil_append _)), by simpa using g4, by simpa using g5⟩
  · obtain ⟨w, hw, hlen⟩ : ∃ w ∈ ws, s.length ≤ w.length := by
      by_contra hc
      exact hall fun w hw => by
        by_contra hlt
        exact hc ⟨w, hw, by omega⟩
    have hone : ws = [w] := by
      rcases hws : ws with _ | ⟨x, l⟩
      · rw [hws] at hw; cases hw
      rcases l with _ | ⟨y, l⟩
      · rw [hws] at hw; simpa using (List.mem_singleton.1 hw).symm
      · exfalso
        rw [hws] at hw hsum
        have hx := List.length_pos_iff.2 (hne x (by rw [hws]; simp))
        have hy := List.length_pos_iff.2 (hne y (by rw [hws]; simp))
        simp only [List.map_cons, List.sum_cons] at hsum
        rcases List.mem_cons.1 hw with rfl | hw
        · omega
        rcases List.mem_cons.1 hw with rfl | hw
        · omega
        have := word_le hw
        omega
    have heq : w.length = s.length := by
      rw [hone] at hsum; simp at hsum; omega
    have hcut : snprintf (s.length + 3) (b!"'" ++ w ++ b!"' ") = b!"'" ++ w ++ b!"'" := by
      unfold snprintf
      rw [show b!"'" ++ w ++ b!"' " = (b!"'" ++ w ++ b!"'") ++ b!" " by simp]
      exact List.take_left' (by simp; omega)
    have htext : snprintf (s.length + 2) w = w := snprintf_ok (by omega)
    have hql : (b!"'" ++ w ++ b!"'").length = w.length + 2 := by simp
    rw [hone]
    by_cases hn : isNameserver w = true
    · have hd : dnsLoop s.length {} [w] = some { shellServers := b!"'" ++ w ++ b!"'", textServers := w, servers := [w] } := by
        simp only [dnsLoop, dnsStep, if_pos hn]
        rw [hcut, if_pos trivial, htext, strncat_ok (by omega) (by rw [hql]; simp; omega), strncat_ok (by omega) (by simp; omega)]
        rfl
      refine ⟨_, hd, .inr ⟨w, by simp [hn], rfl⟩, .inl (by simp [hn]), by simp [hn], by simp [hn]⟩
    · have hd : dnsLoop s.length {} [w] = some { shellDomains := b!"'" ++ w ++ b!"'", textDomains := w, domains := [w] } := by
        simp only [dnsLoop, dnsStep, if_neg hn]
        rw [hcut, if_pos trivial, htext, strncat_ok (by omega) (by rw [hql]; simp; omega), strncat_ok (by omega) (by simp; omega)]
        rfl
      refine ⟨_, hd, .inl (by simp [hn]), .inr ⟨w, by simp [hn], rfl⟩, by simp [hn], by simp [hn]⟩

section
variable {e : Env} {h h' : List Ev}

theorem binderCall_did {c : Call} {u : Unit} (hc : ∀ r, r.killed = false → r.status = .exited 0 → Went true (c, r)) (hb : binderCall c e h = (.ok u, h')) :
    ∃ t, h' = h ++ t ∧ Did true t [c] := by
  obtain ⟨r, h1, b1, b2⟩ := bind_ok hb
  obtain ⟨c1, c2, c3⟩ := call_ok b1
  by_cases hs : r.status = .exited 0
  · rw [if_pos hs] at b2
    obtain ⟨_, b3⟩ := pure_ok b2
    subst b3
    refine ⟨_, c2, rfl, ?_⟩
    intro ev hev
    rw [List.mem_singleton] at hev
    subst hev
    exact hc r c3 hs
  · rw [if_neg hs] at b2; exact (exit_ok b2).elim

theorem setDnses_did {netid : Nat} {list : CStr} {u : Unit} (hb : setDnses netid list e h = (.ok u, h')) :
    ∃ t, h' = h ++ t ∧ DnsTold netid list t ∧ ∀ ev ∈ t, Went true ev := by
  unfold setDnses at hb
  have hE := entries_ok list
  have hS := collected_filter isNameserver isNameserver_iff ((strtok listSeps list).filter unquoted)
  have hD := collected_filter (!isNameserver ·) (P := fun w => ¬ IsNameserver w) (fun w => by simp [← isNameserver_iff]) ((strtok listSeps list).filter unquoted)
  by_cases hl : list.length > 65536
  · rw [if_pos hl] at hb
    obtain ⟨_, hb⟩ := pure_ok hb
    exact ⟨[], by simp [hb], ⟨_, _, _, hE, hS, hD, fun _ => rfl, fun h => absurd (.inl hl) h⟩, by simp⟩
  rw [if_neg hl] at hb
  by_cases hany : ((strtok listSeps list).filter unquoted).any isNameserver = true
  · rw [if_pos hany] at hb
    have hne : ((strtok listSeps list).filter unquoted).filter isNameserver ≠ [] := by
      obtain ⟨w, h1, h2⟩ := List.any_eq_true.1 hany
      exact List.ne_nil_of_mem (List.mem_filter.2 ⟨h1, h2⟩)
    have hlist : list ≠ [] := by rintro rfl; simp [strtok, strtokAux] at hany
    obtain ⟨d, g1, g2, g3, g4, g5⟩ := dnsLoop_entries list hlist
    rw [g1] at hb
    dsimp only at hb
    obtain ⟨r, h1, b1, b2⟩ := bind_ok hb
    obtain ⟨c1, c2, c3⟩ := call_ok b1
    have hH : Did true [(Call.handle, r)] [.handle] := ⟨rfl, by simpa [Went] using c3⟩
    by_cases hs : r.status = .exited 0
    · rw [if_pos hs] at b2
      obtain ⟨_, h2, b3, b4⟩ := bind_ok b2
      obtain ⟨t1, e1, d1⟩ := binderCall_did (fun r h1 h2 => ⟨h1, h2⟩) b3
      obtain ⟨t2, e2, d2⟩ := binderCall_did (fun r h1 h2 => ⟨h1, h2⟩) b4
      subst e2 e1 c2
      have hall := (hH.append d1).append d2
      refine ⟨[(Call.handle, r)] ++ t1 ++ t2, by simp, ⟨_, _, _, hE, hS, hD, fun h => ?_, fun _ => ⟨r, by simp, fun _ => ?_, fun h => absurd hs h⟩⟩, hall.2⟩
      · rcases h with h | h
        · exact absurd h hl
        · exact absurd h hne
      · rw [hall.1, g4, g5]; rfl
    · rw [if_neg hs, showDec_eq] at b2
      obtain ⟨t1, e1, d1⟩ := cndc_did (strict := true) b2
      subst e1 c2
      have hall := hH.append d1
      refine ⟨[(Call.handle, r)] ++ t1, by simp, ⟨_, _, _, hE, hS, hD, fun h => ?_, fun _ => ⟨r, by simp, fun h => absurd h hs, fun _ => ⟨_, _, g3, g2, ?_⟩⟩⟩, hall.2⟩
      · rcases h with h | h
        · exact absurd h hl
        · exact absurd h hne
      · rw [hall.1]; rfl
  · rw [if_neg hany] at hb
    obtain ⟨_, hb⟩ := pure_ok hb
    refine ⟨[], by simp [hb], ⟨_, _, _, hE, hS, hD, fun _ => rfl, fun h => absurd (.inr ?_) h⟩, by simp⟩
    rw [List.filter_eq_nil_iff]
    intro w hw hn
    exact hany (List.any_eq_true.2 ⟨w, hw, hn⟩)

/-! ### MTU -/

theorem atoi_int {s : CStr} {n : Nat} (h : IsDecimal s n) (hn : n < 2 ^ 31) : atoi s = n := by
  obtain ⟨h1, h2, h3⟩ := h
  obtain ⟨d, t, rfl⟩ := List.exists_cons_of_ne_nil h1
  have hd := h2 d (by simp)
  have e1 : (d :: t).dropWhile isspaceLibc = d :: t := by simp [digit_not_space d hd]
  obtain ⟨n1, n2⟩ := digit_not_sign d hd
  have e2 : strtoulSign (d :: t) = (false, d :: t) := by
    unfold strtoulSign; split <;> simp_all
  have e3 : (d :: t).takeWhile (isDigitOf 10) = d :: t := takeWhile_all _ _ (by intro a ha; rw [isDigitOf10]; exact h2 a ha)
  unfold atoi
  rw [e1, e2]
  dsimp only
  rw [e3, digitsVal10 _ h2, ← h3, if_neg (by simp)]
  omega

/-- The MTUs that commands print are numbers below 2^31. -/
def UsualMtus (e : Env) : Prop := ∀ h s l n, l ∈ linesOf (e.reply h (.read s)).out → MtuIn l n → n < 2 ^ 31

theorem mtu_some {l m : CStr} (h : mtuIn l = some m) (hu : ∀ n, MtuIn l n → n < 2 ^ 31) : ∃ n, MtuIn l n ∧ atoi m = n := by
  unfold mtuIn at h
  rw [WG.Quick.wordArg_iff, WG.Quick.isDig_eq] at h
  obtain ⟨a, b, h1, h2, h3, h4⟩ := id h
  exact ⟨decVal m, ⟨m, h, rfl⟩, atoi_int ⟨h2, h3, rfl⟩ (hu _ ⟨m, h, rfl⟩)⟩

theorem usual_reply (hu : UsualMtus e) {s : CStr} {v : Reply} (hv : v = e.reply h (.read s)) {l : CStr} {rest : List CStr} (hl : linesOf v.out = l :: rest) :
    ∀ n, MtuIn l n → n < 2 ^ 31 := fun n hn => hu h s l n (by rw [← hv, hl]; simp) hn

theorem firstLine_ev {s : CStr} {l : Option CStr} (hs : ¬ b!"ndc " <+: s) (hb : firstLine s e h = (.ok l, h')) :
    ∃ r, r = e.reply h (.read s) ∧ h' = h ++ [(.read s, r)] ∧ Went true (.read s, r) ∧ (linesOf r.out).head? = l := by
  obtain ⟨r, e1, d1, hl, _⟩ := firstLine_did (strict := true) hs hb
  obtain ⟨r', g1, g2, _⟩ := firstLine_ok hb
  have : r = r' := by
    rw [e1] at g2
    have := List.append_cancel_left g2
    simpa using this
  subst this
  rw [linesOf_eq] at hl
  exact ⟨r, g1, e1, d1.2 _ (by simp), hl⟩

theorem routeMtu_did {ep : CStr} {m : Int} (hu : UsualMtus e) (hb : routeMtu ep e h = (.ok m, h')) :
    ∃ t o, h' = h ++ t ∧ RouteMtu ep o t ∧ m = (o.map Int.ofNat).getD (-1) ∧ ∀ ev ∈ t, Went true ev := by
  obtain ⟨v, h1, b1, hb⟩ := bind_ok hb
  have hq : ¬ b!"ndc " <+: (if ep = b!"default" then b!"ip -o route show " else b!"ip -o route get ") ++ ep := by
    by_cases hd : ep = b!"default"
    · rw [if_pos hd]; exact ip_not_ndc (b!"-o route show " ++ ep)
    · rw [if_neg hd]; exact ip_not_ndc (b!"-o route get " ++ ep)
  obtain ⟨r, g1, g2, g3, g4⟩ := firstLine_ev hq b1
  cases hl : linesOf r.out with
  | nil =>
    rw [hl] at g4
    subst g4
    obtain ⟨c1, c2⟩ := pure_ok hb
    subst c2
    exact ⟨_, none, g2, .noRoute hl, c1.symm, by simpa using g3⟩
  | cons l rest =>
    rw [hl] at g4
    subst g4
    dsimp only [List.head?_cons] at hb
    cases hm : mtuIn l with
    | some d =>
      rw [hm] at hb
      obtain ⟨c1, c2⟩ := pure_ok hb
      subst c2
      obtain ⟨n, n1, n2⟩ := mtu_some hm (usual_reply hu g1 hl)
      exact ⟨_, some n, g2, .route hl n1, by rw [← c1, n2]; rfl, by simpa using g3⟩
    | none =>
      rw [hm] at hb
      dsimp only at hb
      have hnone := (mtuIn_none l).1 hm
      cases hd : devIn l with
      | none =>
        rw [hd] at hb
        obtain ⟨c1, c2⟩ := pure_ok hb
        subst c2
        exact ⟨_, none, g2, .noDev hl hnone ((devIn_none l).1 hd), c1.symm, by simpa using g3⟩
      | some dev =>
        rw [hd] at hb
        have hdev := (devIn_iff l dev).1 hd
        obtain ⟨v', h2, b2, hb⟩ := bind_ok hb
        obtain ⟨r', k1, k2, k3, k4⟩ := firstLine_ev (ip_not_ndc (b!"-o link show dev " ++ dev)) b2
        have hall : ∀ ev ∈ [(routeQuery ep, r), (Call.read (b!"ip -o link show dev " ++ dev), r')], Went true ev := by
          intro ev hev
          simp only [List.mem_cons, List.not_mem_nil, or_false] at hev
          rcases hev with rfl | rfl
          · exact g3
          · exact k3
        have hh : h2 = h ++ [(routeQuery ep, r), (Call.read (b!"ip -o link show dev " ++ dev), r')] := by
          rw [k2, g2]; simp [routeQuery]
        cases hl' : linesOf r'.out with
        | nil =>
          rw [hl'] at k4
          subst k4
          obtain ⟨c1, c2⟩ := pure_ok hb
          subst c2
          exact ⟨_, none, hh, .noLink hl hnone hdev hl', c1.symm, hall⟩
        | cons l' rest' =>
          rw [hl'] at k4
          subst k4
          dsimp only [List.head?_cons] at hb
          cases hm' : mtuIn l' with
          | some d =>
            rw [hm'] at hb
            obtain ⟨c1, c2⟩ := pure_ok hb
            subst c2
            obtain ⟨n, n1, n2⟩ := mtu_some hm' (usual_reply hu k1 hl')
            exact ⟨_, some n, hh, .link hl hnone hdev hl' n1, by rw [← c1, n2]; rfl, hall⟩
          | none =>
            rw [hm'] at hb
            obtain ⟨c1, c2⟩ := pure_ok hb
            subst c2
            exact ⟨_, none, hh, .linkNone hl hnone hdev hl' ((mtuIn_none l').1 hm'), c1.symm, hall⟩

theorem mtuLoop_did (hu : UsualMtus e) {r : Reply} : ∀ {ls : List CStr} {first : Nat} {m : Int} {h h' : List Ev}, mtuLoop r first ls e h = (.ok m, h') →
    ∃ t ms k, h' = h ++ t ∧ LineMtus ls ms t ∧ m = ((k : Nat) : Int) ∧ Least first ms k ∧ ∀ ev ∈ t, Went true ev
  | [], first, m, h, h', hb => by
    obtain ⟨_, h1, b1, b2⟩ := bind_ok hb
    obtain ⟨c1, c2⟩ := pure_ok b2
    obtain ⟨c3, _⟩ := atEof_ok b1
    subst c3 c2
    exact ⟨[], [], first, by simp, .nil, c1.symm, ⟨.inl rfl, by omega, by simp⟩, by simp⟩
  | l :: ls, first, m, h, h', hb => by
    simp only [mtuLoop] at hb
    cases hh : endpointHost l with
    | none =>
      rw [hh] at hb
      obtain ⟨t, ms, k, g1, g2, g3, g4, g5⟩ := mtuLoop_did hu hb
      exact ⟨t, ms, k, g1, .skip ((endpointHost_none l).1 hh) g2, g3, g4, g5⟩
    | some host =>
      rw [hh] at hb
      obtain ⟨next, h1, b1, b2⟩ := bind_ok hb
      obtain ⟨t1, o, e1, r1, hn, w1⟩ := routeMtu_did hu b1
      have hfirst : ∃ f' : Nat, (if next > 0 ∧ next < first then next else (first : Int)) = f' ∧ f' ≤ first ∧ (f' = first ∨ (f' ∈ o.toList ∧ 0 < f')) ∧ ∀ x ∈ o.toList, 0 < x → f' ≤ x := by
        cases o with
        | none =>
          subst hn
          exact ⟨first, by simp, by omega, .inl rfl, by simp⟩
        | some x =>
          simp only [Option.map_some, Option.getD_some, Int.ofNat_eq_natCast] at hn
          subst hn
          by_cases hx : ((x : Nat) : Int) > 0 ∧ ((x : Nat) : Int) < first
          · rw [if_pos hx]
            exact ⟨x, rfl, by omega, .inr ⟨by simp, by omega⟩, by simp⟩
          · rw [if_neg hx]
            refine ⟨first, rfl, by omega, .inl rfl, fun y hy h0 => ?_⟩
            simp at hy; subst hy; omega
      obtain ⟨f', f1, f2, f3, f4⟩ := hfirst
      rw [f1] at b2
      obtain ⟨t2, ms, k, g1, g2, g3, g4, g5⟩ := mtuLoop_did hu b2
      refine ⟨t1 ++ t2, o.toList ++ ms, k, by rw [g1, e1, List.append_assoc], .look ((endpointHost_iff l host).1 hh) r1 g2, g3, ⟨?_, by have := g4.2.1; omega, ?_⟩, ?_⟩
      · rcases g4.1 with hk | ⟨hk, hk0⟩
        · rcases f3 with f3 | ⟨f3, f30⟩
          · left; omega
          · right; rw [hk]; exact ⟨List.mem_append_left _ f3, f30⟩
        · right; exact ⟨List.mem_append_right _ hk, hk0⟩
      · intro x hx h0
        rcases List.mem_append.1 hx with hx | hx
        · have := f4 x hx h0; have := g4.2.1; omega
        · exact g4.2.2 x hx h0
      · intro ev hev
        rcases List.mem_append.1 hev with hev | hev
        · exact w1 ev hev
        · exact g5 ev hev

theorem showInt_eq (i : Int) : showInt i = decimalInt i := by unfold showInt decimalInt; rw [showDec_eq]

theorem setMtu_did {iface : CStr} {mtu : Nat} {u : Unit} (hu : UsualMtus e) (hb : setMtu iface mtu e h = (.ok u, h')) :
    ∃ t, h' = h ++ t ∧ MtuSet iface mtu t ∧ ∀ ev ∈ t, Went true ev := by
  unfold setMtu at hb
  by_cases hm : mtu ≠ 0
  · rw [if_pos hm, showDec_eq] at hb
    obtain ⟨t, e1, d1⟩ := cndc_did (strict := true) hb
    exact ⟨t, e1, ⟨fun _ => d1.1, fun h => absurd h hm⟩, d1.2⟩
  · rw [if_neg hm] at hb
    obtain ⟨m, h1, b1, hb⟩ := bind_ok hb
    obtain ⟨r, h2, b2, hb⟩ := bind_ok hb
    obtain ⟨m2, h3, b3, hb⟩ := bind_ok hb
    rw [showInt_eq] at hb
    obtain ⟨td, o, e1, r1, hn, w1⟩ := routeMtu_did hu b1
    obtain ⟨e2, d2⟩ := popen_did (strict := true) (by rw [List.append_assoc]; exact wg_not_ndc _) b2
    have hf : (if m = -1 then (1500 : Int) else m) = ((o.getD 1500 : Nat) : Int) := by
      cases o with
      | none => subst hn; rfl
      | some x =>
        simp only [Option.map_some, Option.getD_some, Int.ofNat_eq_natCast] at hn
        subst hn
        rw [if_neg (by omega)]; rfl
    rw [hf] at b3
    obtain ⟨te, ms, k, g1, g2, g3, g4, g5⟩ := mtuLoop_did hu b3
    obtain ⟨hc1, _⟩ := cndc_ok hb
    obtain ⟨t4, e4, d4⟩ := cndc_did (strict := true) hb
    rw [hc1] at e4
    have e4 := List.append_cancel_left e4
    subst hc1 g1 e2 e1
    refine ⟨td ++ (Call.read (b!"wg show " ++ iface ++ b!" endpoints"), r) :: te ++ t4, by rw [← e4]; simp, ⟨fun h => absurd h hm, fun _ =>
      ⟨o, td, r, ms, te, k, _, r1, by rw [← linesOf_eq]; exact g2, g4, by rw [← e4], by rw [g3]; rfl⟩⟩, ?_⟩
    intro ev hev
    simp only [List.mem_append, List.mem_cons] at hev
    rcases hev with (hev | rfl | hev) | hev
    · exact w1 ev hev
    · exact d2.2 _ (by simp)
    · exact g5 ev hev
    · exact d4.2 ev hev
end

end WG.Android
