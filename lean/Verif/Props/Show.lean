import Verif.Proof.Show
import Verif.Proof.ShowGet
import Verif.Props.Uapi
/-! C28, C33, C35, C36, C37, C48: the show commands. -/
namespace WG.Props
open WG WG.Spec

/-! ### C37 -/

/-- C37. With colours off, for every text (without NUL, as C strings are) and either signedness of `char`: no access outside
the buffer happens, and what is printed is the text with its terminal sequences removed and nothing else. -/
theorem c37_filter (sc : Bool) (text : CStr) (h : (0 : UInt8) ∉ text) :
    ∃ out, filterAnsi sc false text = some out ∧ Stripped text out ∧ ∀ out', Stripped text out' → out' = out := by
  obtain ⟨out, h1, h2⟩ := filterAnsi_off sc text h
  exact ⟨out, h1, h2, fun _ h' => stripped_unique h' h2⟩

/-- C37: text without escape characters is printed unchanged, with colours on or off. -/
theorem c37_plain (sc color : Bool) (text : CStr) (h : (0 : UInt8) ∉ text) (hp : (27 : UInt8) ∉ text) :
    filterAnsi sc color text = some text := by
  cases color
  · exact filterAnsi_strips sc (.plain hp) h
  · rfl

/-- C37: when colours are on. -/
theorem c37_mode (var : Option CStr) (isatty : Bool) :
    colorMode var isatty = true ↔ var = some b!"always" ∨ (var ≠ some b!"never" ∧ isatty = true) := by
  simp only [colorMode]
  split
  · simp [*]
  split
  · simp [*]
  · simp [*]

example : filterAnsi true false b!"\x1b[32m\x1b[1minterface\x1b[0m: \x1b[32mwg0\x1b[0m\n" = some b!"interface: wg0\n" := by decide +kernel
example : filterAnsi true false b!"a\x1b[" = some b!"a\x1b[" ∧ filterAnsi false false b!"a\x1b[31" = some b!"a" := by decide +kernel

/-! ### C36 -/

/-- C36. A duration has one representation with proper parts, so the following theorems determine the text. -/
theorem c36_unique (d d' : Duration) (h : d.Proper) (h' : d'.Proper) (e : d.total = d'.total) : d = d' := by
  obtain ⟨y, dd, hh, m, s⟩ := d
  obtain ⟨y', dd', hh', m', s'⟩ := d'
  simp only [Duration.Proper, Duration.total] at h h' e
  simp only [Duration.mk.injEq]
  omega

/-- C36. The time since a handshake, for every clock value and handshake time whose difference fits 64 bits: the text fits its
1024-byte buffer, and displays `Now`, the clock warning, or the nonzero parts of the proper duration. -/
theorem c36_ago (now sec : Int) (h : now - sec < 2 ^ 64) :
    ∃ t shown, ago now sec = some t ∧ t.length < 1024 ∧ Stripped t shown ∧ AgoText now sec shown := by
  obtain ⟨t, o, h1, h2, h3, -, h5⟩ := ago_spec now sec (by omega)
  exact ⟨t, o, h1, h5, h3.stripped, h2⟩

/-- C36. The keepalive interval, likewise. -/
theorem c36_every (n : UInt16) : ∃ t shown, every n = some t ∧ t.length < 1024 ∧ Stripped t shown ∧ EveryText n.toNat shown := by
  obtain ⟨t, o, h1, h2, h3, -, h5⟩ := every_spec n
  exact ⟨t, o, h1, h5, h3.stripped, h2⟩

example : (ago 31626061 0).bind (filterAnsi true false) = some b!"1 year, 1 day, 1 hour, 1 minute, 1 second ago" := by decide +kernel
example : (every 25).bind (filterAnsi true false) = some b!"every 25 seconds" := by decide +kernel
example : (⟨1, 0, 0, 2, 0⟩ : Duration).text = b!"1 year, 2 minutes" := by decide +kernel

/-! ### C35 -/

/-- The texts the show commands are to use: addresses as the system prints them, endpoints as `host:port` with IPv6 hosts in
brackets (or the system's error message), `%.2f` amounts, and hidden keys unless WG_HIDE_KEYS is `never`. -/
def shownTexts (env : ShowEnv) : Texts where
  addr a := match a with | .v4 x => env.out.ntop4 x | .v6 x => env.out.ntop6 x
  endpoint e := match env.out.nameinfo e, e with
    | none, _ => env.gaiError e
    | some (h, s), .in6 .. => hostPort h s
    | some (h, s), _ => h ++ c!":" :: s
  frac := env.fmt2
  hide := env.hideVar ≠ some b!"never"
  now := env.now

theorem shownTexts_eq (env : ShowEnv) : shownTexts env = textsOf env := by
  simp only [shownTexts, textsOf, Texts.mk.injEq, and_true]
  refine ⟨?_, ?_⟩
  · funext a; cases a <;> rfl
  · funext e
    simp only [endpointText]
    cases env.out.nameinfo e with
    | none => rfl
    | some hs =>
      obtain ⟨h, s⟩ := hs
      cases e <;> simp [hostPort]

/-- The system's texts are ordinary text: no NUL, escape character or line feed. -/
structure OrdinaryTexts (env : ShowEnv) : Prop where
  ip4 : ∀ a, Plain (env.out.ntop4 a)
  ip6 : ∀ a, Plain (env.out.ntop6 a)
  host : ∀ e h s, env.out.nameinfo e = some (h, s) → Plain h ∧ Plain s
  err : ∀ e, Plain (env.gaiError e)
  frac : ∀ b d, Plain (env.fmt2 b d)

theorem OrdinaryTexts.plain {env : ShowEnv} (h : OrdinaryTexts env) : PlainTexts env where
  addr a := by cases a; exacts [h.ip4 _, h.ip6 _]
  endpoint e _ := by
    have colon : Plain b!":" := by decide
    simp only [endpointText]
    split
    · exact h.err e
    · rename_i host service hn
      obtain ⟨h1, h2⟩ := h.host _ _ _ hn
      have hj : Plain (host ++ c!":" :: service) := h1.append (colon.append h2)
      split
      · split
        · have h3 : Plain b!"[" := by decide
          have h4 : Plain b!"]:" := by decide
          have := (h3.append h1).append (h4.append h2)
          simpa using this
        · exact hj
      · exact hj
  frac := h.frac

/-- C35 (and the content of the listing). Pretty show prints the device, then every peer exactly once, newest handshake first
and peers without a handshake last; the output is exactly the documented lines. With colours on, it is that text plus
terminal sequences. `qsort` is any correct sorting function. -/
theorem c35_listing (env : ShowEnv) (hq : IsQsort env.qsort) (ho : OrdinaryTexts env) (d : Device) (hn : Plain d.name)
    (ht : ∀ p ∈ d.peers, env.now - p.handshakeSec < 2 ^ 63) :
    ∃ ps out shown, ps.Perm d.peers ∧ ps.Pairwise NewerOrSame ∧ Listing (shownTexts env) d ps shown ∧
      prettyPrint env d = some out ∧ (colorMode env.colorVar env.isatty = false → out = shown) ∧
      (colorMode env.colorVar env.isatty = true → Stripped out shown) := by
  obtain ⟨h1, h2⟩ := sortPeers_spec env hq d.peers
  have hne : sortPeers env d.peers = [] ↔ d.peers = [] :=
    ⟨fun e => List.length_eq_zero_iff.1 (by rw [← h1.length_eq, e]; rfl), fun e => List.length_eq_zero_iff.1 (by rw [h1.length_eq, e]; rfl)⟩
  obtain ⟨out, shown, h3, h4, h5, h6⟩ := prettyPrint_listing env ho.plain d hn
    (fun p hp => by have := ht p (h1.mem_iff.1 hp); omega) hne
  exact ⟨_, out, shown, h1, h2, shownTexts_eq env ▸ h3, h4, h5, h6⟩

/-- C35: for times in the range the userspace protocol accepts (and any sane kernel reports), the subtractions of the comparison
stay within `int64_t`. -/
theorem c35_no_overflow (a b : Int) (ha : 0 ≤ a) (ha' : a < 2 ^ 63) (hb : 0 ≤ b) (hb' : b < 2 ^ 63) :
    -(2 ^ 63) ≤ a - b ∧ a - b < 2 ^ 63 := by omega

/-- A sorting function (insertion sort), to show that the hypothesis on `qsort` can be met. -/
def insertBy (cmp : Nat → Nat → Int) (i : Nat) : List Nat → List Nat
  | [] => [i]
  | j :: l => if cmp i j ≤ 0 then i :: j :: l else j :: insertBy cmp i l

def insertionSort (n : Nat) (cmp : Nat → Nat → Int) : List Nat := (List.range n).foldr (insertBy cmp) []

theorem insertBy_perm (cmp : Nat → Nat → Int) (i : Nat) (l : List Nat) : (insertBy cmp i l).Perm (i :: l) := by
  induction l with
  | nil => exact .refl _
  | cons j l ih =>
    simp only [insertBy]; split
    · exact .refl _
    · exact (ih.cons j).trans (.swap i j l)

theorem insertionSort_ok : IsQsort insertionSort := by
  intro n cmp ha ht
  have gen : ∀ l : List Nat, (l.foldr (insertBy cmp) []).Perm l ∧ (l.foldr (insertBy cmp) []).Pairwise fun i j => cmp i j ≤ 0 := by
    intro l
    induction l with
    | nil => exact ⟨.refl _, .nil⟩
    | cons i l ih =>
      obtain ⟨h1, h2⟩ := ih
      refine ⟨(insertBy_perm cmp i _).trans (h1.cons i), ?_⟩
      simp only [List.foldr_cons]
      generalize l.foldr (insertBy cmp) [] = s at h1 h2
      clear h1
      induction s with
      | nil => simp [insertBy]
      | cons j s ih =>
        obtain ⟨h3, h4⟩ := List.pairwise_cons.1 h2
        simp only [insertBy]; split
        · rename_i hij
          refine List.pairwise_cons.2 ⟨?_, h2⟩
          intro k hk
          rcases List.mem_cons.1 hk with rfl | hk
          · exact hij
          · exact ht _ _ _ hij (h3 k hk)
        · rename_i hij
          refine List.pairwise_cons.2 ⟨?_, ih h4⟩
          intro k hk
          rcases List.mem_cons.1 ((insertBy_perm cmp i s).mem_iff.1 hk) with rfl | hk
          · have := ha k j; omega
          · exact h3 k hk
  exact gen _

/-- A concrete environment. -/
def stdShow : ShowEnv where
  sc := true
  out := stdOut
  gaiError _ := b!"Bad value for ai_flags"
  colorVar := none
  isatty := false
  hideVar := none
  now := 1000
  fmt2 b d := showDec (b / d) ++ b!"." ++ showDec (b % d * 100 / d)
  qsort := insertionSort

theorem addr_plain {s : CStr} (h : ∀ c ∈ s, c ∈ addrChars) : Plain s := by
  intro c hc
  have := h c hc
  refine ⟨?_, ?_, ?_⟩ <;> (rintro rfl; revert this; decide)

theorem stdShow_ok : OrdinaryTexts stdShow where
  ip4 a := addr_plain fun c hc => sub_chars (ntop4_chars a c hc)
  ip6 a := addr_plain (ntop6_chars a)
  host e h s hn := by
    have hdec : ∀ n, Plain (showDec n) := fun n => by rw [showDec_eq]; exact decimal_plain n
    cases e with
    | unset => simp [stdShow, stdOut] at hn
    | in4 a p =>
      simp only [stdShow, stdOut, Option.some.injEq, Prod.mk.injEq] at hn
      obtain ⟨rfl, rfl⟩ := hn
      exact ⟨addr_plain fun c hc => sub_chars (ntop4_chars a c hc), hdec _⟩
    | in6 a p fl sc =>
      simp only [stdShow, stdOut, Option.some.injEq, Prod.mk.injEq] at hn
      obtain ⟨rfl, rfl⟩ := hn
      refine ⟨(addr_plain (ntop6_chars a)).append ?_, hdec _⟩
      split
      · intro c hc; simp at hc
      · exact Plain.append (a := b!"%") (by decide) (hdec _)
  err _ := by show Plain b!"Bad value for ai_flags"; decide
  frac b d := by
    have hdec : ∀ n, Plain (showDec n) := fun n => by rw [showDec_eq]; exact decimal_plain n
    exact ((hdec _).append (by decide)).append (hdec _)

/-- Three peers: old handshake, none, new handshake. -/
def showSample : Device where
  name := b!"wg0"
  flags := { hasPrivateKey := true, hasPublicKey := true }
  privateKey := sampleKey
  publicKey := sampleKey
  listenPort := 51820
  fwmark := 255
  peers := [{ publicKey := sampleKey, handshakeSec := 900, endpoint := .in6 (Vector.replicate 16 0xfe) 7 0 0, rx := 2048, keepalive := 61 },
    { publicKey := sampleKey, presharedKey := sampleKey, flags := { hasPresharedKey := true } },
    { publicKey := sampleKey, handshakeSec := 990, allowedIPs := [⟨.v4 #v[10, 0, 0, 1], 32⟩, ⟨.v6 (Vector.replicate 16 0), 0⟩] }]

-- the hypotheses of C35 hold for it
example : ∃ ps out shown, ps.Perm showSample.peers ∧ ps.Pairwise NewerOrSame ∧ Listing (shownTexts stdShow) showSample ps shown ∧
    prettyPrint stdShow showSample = some out ∧ out = shown := by
  obtain ⟨ps, out, shown, h1, h2, h3, h4, h5, -⟩ := c35_listing stdShow insertionSort_ok stdShow_ok showSample (by decide) (by decide)
  exact ⟨ps, out, shown, h1, h2, h3, h4, h5 (by decide)⟩

example : prettyPrint stdShow showSample = some
  b!"interface: wg0\n  public key: AQIDBAUGBwgJCgsMDQ4PEBESExQVFhcYGRobHB0eHyA=\n  private key: (hidden)\n  listening port: 51820\n  fwmark: 0xff\n\npeer: AQIDBAUGBwgJCgsMDQ4PEBESExQVFhcYGRobHB0eHyA=\n  allowed ips: 10.0.0.1/32, ::/0\n  latest handshake: 10 seconds ago\n\npeer: AQIDBAUGBwgJCgsMDQ4PEBESExQVFhcYGRobHB0eHyA=\n  endpoint: [fefe:fefe:fefe:fefe:fefe:fefe:fefe:fefe]:7\n  allowed ips: (none)\n  latest handshake: 1 minute, 40 seconds ago\n  transfer: 2.0 KiB received, 0 B sent\n  persistent keepalive: every 1 minute, 1 second\n\npeer: AQIDBAUGBwgJCgsMDQ4PEBESExQVFhcYGRobHB0eHyA=\n  preshared key: (hidden)\n  allowed ips: (none)\n" := by
  decide +kernel

/-! ### C33 -/

/-- C33. Unless WG_HIDE_KEYS is `never`, pretty show prints the same for two devices that differ only in the values of the
private key and the preshared keys — whatever the system answers, with or without colours, for any `qsort`. -/
theorem c33_device (env : ShowEnv) (h : env.hideVar ≠ some b!"never") (d d' : Device) (e : withoutSecrets d = withoutSecrets d') :
    prettyPrint env d = prettyPrint env d' := by
  rw [← prettyPrint_hide env h d, e, prettyPrint_hide env h d']

/-- Two results of reading an interface that differ only in secrets. -/
def SameButSecrets (a b : Int × Option Device) : Prop := a.1 = b.1 ∧ a.2.map withoutSecrets = b.2.map withoutSecrets

theorem showAllLoop_hide (env : ShowEnv) (h : env.hideVar ≠ some b!"never") (i i' : ShowIpc) (hg : ∀ n, SameButSecrets (i.get n) (i'.get n))
    (names : List CStr) (ret : Nat) : showAllLoop env i none ret names = showAllLoop env i' none ret names := by
  induction names generalizing ret with
  | nil => rfl
  | cons n l ih =>
    have hgn := hg n
    rcases hi : i.get n with ⟨c, dv⟩
    rcases hi' : i'.get n with ⟨c', dv'⟩
    rw [hi, hi'] at hgn
    obtain ⟨e1, e2⟩ := hgn
    simp only at e1 e2
    subst e1
    unfold showAllLoop
    rw [hi, hi']
    simp only
    cases dv with
    | none =>
      cases dv' with
      | none => simp only [ih]
      | some d' => simp at e2
    | some d =>
      cases dv' with
      | none => simp at e2
      | some d' =>
        simp only [Option.map_some, Option.some.injEq] at e2
        simp only [c33_device env h d d' e2, ih]

/-- C33, for the whole command: `wg show`, `wg show all`, `wg show INTERFACE` (and `wg show interfaces`) print the same and exit
the same when all devices differ only in secrets. -/
theorem c33_show (env : ShowEnv) (h : env.hideVar ≠ some b!"never") (i i' : ShowIpc) (hl : i.list = i'.list)
    (hg : ∀ n, SameButSecrets (i.get n) (i'.get n)) (args : List CStr) (ha : args.length ≤ 1) :
    showMain env i args = showMain env i' args := by
  have hall : showAll env i none = showAll env i' none := by
    simp only [showAll, hl]
    split
    · rfl
    · exact showAllLoop_hide env h i i' hg _ _
  have hone : ∀ n, showOne env i n none = showOne env i' n none := by
    intro n
    have hgn := hg n
    rcases hi : i.get n with ⟨c, dv⟩
    rcases hi' : i'.get n with ⟨c', dv'⟩
    rw [hi, hi'] at hgn
    obtain ⟨e1, e2⟩ := hgn
    simp only at e1 e2
    subst e1
    unfold showOne
    rw [hi, hi']
    simp only
    cases dv with
    | none =>
      cases dv' with
      | none => rfl
      | some d' => simp at e2
    | some d =>
      cases dv' with
      | none => simp at e2
      | some d' =>
        simp only [Option.map_some, Option.some.injEq] at e2
        simp only [c33_device env h d d' e2]
  match args, ha with
  | [], _ => exact hall
  | [a], _ => simp only [showMain, hall, hone, hl]

/-- C33: the scripting listings other than `private-key`, `preshared-keys` and `dump` do not depend on secrets either. -/
theorem c33_columns (env : ShowEnv) (d d' : Device) (e : withoutSecrets d = withoutSecrets d') (param : CStr) (w : Bool)
    (h1 : param ≠ b!"private-key") (h2 : param ≠ b!"preshared-keys") (h3 : param ≠ b!"dump") :
    uglyPrint env d param w = uglyPrint env d' param w := by
  have key : ∀ d, uglyPrint env (withoutSecrets d) param w = uglyPrint env d param w := by
    intro d
    simp only [uglyPrint, if_neg h1, if_neg h2, if_neg h3, withoutSecrets, List.flatMap_map]
    rfl
  rw [← key d, e, key d']

/-- With WG_HIDE_KEYS=never the private key is shown, so the hypothesis is needed; and it does not hide the other columns. -/
example : (prettyPrint { stdShow with hideVar := some b!"never" } { name := b!"wg0", flags := { hasPrivateKey := true }, privateKey := sampleKey }) ≠
    (prettyPrint { stdShow with hideVar := some b!"never" } { name := b!"wg0", flags := { hasPrivateKey := true } }) := by decide +kernel

/-! ### C28 and C48 -/

/-- `wg show` of one interface knows the parameter. -/
def showParams : List CStr := [b!"public-key", b!"private-key", b!"listen-port", b!"fwmark", b!"endpoints", b!"allowed-ips",
  b!"latest-handshakes", b!"transfer", b!"persistent-keepalive", b!"preshared-keys", b!"peers", b!"dump"]

theorem ugly_isSome (env : ShowEnv) (d : Device) (param : CStr) (w : Bool) : (uglyPrint env d param w).isSome = true ↔ param ∈ showParams := by
  constructor
  · intro h
    apply Classical.byContradiction
    intro hn
    simp only [showParams, List.mem_cons, List.not_mem_nil, or_false, not_or] at hn
    obtain ⟨h1, h2, h3, h4, h5, h6, h7, h8, h9, h10, h11, h12⟩ := hn
    simp only [uglyPrint, if_neg h1, if_neg h2, if_neg h3, if_neg h4, if_neg h5, if_neg h6, if_neg h7, if_neg h8, if_neg h9, if_neg h10,
      if_neg h11, if_neg h12, Option.isSome_none, Bool.false_eq_true] at h
  · intro h
    simp only [showParams, List.mem_cons, List.not_mem_nil, or_false] at h
    rcases h with rfl | rfl | rfl | rfl | rfl | rfl | rfl | rfl | rfl | rfl | rfl | rfl <;> rfl

/-- No NUL in the texts of the system: they are C strings. -/
theorem pretty_isSome (env : ShowEnv) (d : Device) (h : (prettyPeers env (sortPeers env d.peers)).isSome = true)
    (h0 : colorMode env.colorVar env.isatty = true) : (prettyPrint env d).isSome = true := by
  obtain ⟨t, ht⟩ := Option.isSome_iff_exists.1 h
  simp only [prettyPrint, ht, h0, Option.bind_eq_bind, Option.bind_some, mapM_color]
  rfl

/-- C48 and C28, one interface: if reading the interface gives a device whenever it does not report an error, and pretty
printing is in its range (C35, C36), then `wg show IFACE [PARAM]` ends with status 0 exactly if the interface was read and the
parameter is known; otherwise with status 1. -/
theorem c48_show_one (env : ShowEnv) (ipc : ShowIpc) (name : CStr) (param : Option CStr)
    (hs : ∀ code, (ipc.get name) = (code, none) → code < 0)
    (hp : ∀ code d, ipc.get name = (code, some d) → (prettyPrint env d).isSome = true) :
    (showOne env ipc name param).end_ = .ok (if 0 ≤ (ipc.get name).1 ∧ (∀ w, param = some w → w ∈ showParams) then 0 else 1) := by
  unfold showOne
  rcases hg : ipc.get name with ⟨code, dev⟩
  simp only
  by_cases hc : code < 0
  · rw [if_pos hc, if_neg (by omega)]
  · rw [if_neg hc]
    cases dev with
    | none => exact absurd (hs code hg) hc
    | some d =>
      cases param with
      | none =>
        obtain ⟨o, ho⟩ := Option.isSome_iff_exists.1 (hp code d hg)
        simp only [ho, reduceCtorEq, false_implies, implies_true, and_true, if_pos (show (0 : Int) ≤ code by omega)]
      | some w =>
        simp only [Option.some.injEq, forall_eq']
        by_cases hw : w ∈ showParams
        · obtain ⟨o, ho⟩ := Option.isSome_iff_exists.1 ((ugly_isSome env d w false).2 hw)
          simp only [ho, if_pos (show (0 : Int) ≤ code ∧ w ∈ showParams from ⟨by omega, hw⟩)]
        · have : uglyPrint env d w false = none := by
            rw [← Option.not_isSome_iff_eq_none, ugly_isSome]; exact hw
          simp only [this, if_neg (show ¬ ((0 : Int) ≤ code ∧ w ∈ showParams) from fun h => hw h.2)]

theorem showAllLoop_status (env : ShowEnv) (ipc : ShowIpc) (param : Option CStr) (names : List CStr) (ret : Nat)
    (hs : ∀ name ∈ names, ∀ code, (ipc.get name) = (code, none) → code < 0)
    (hp : ∀ name ∈ names, ∀ code d, ipc.get name = (code, some d) → (prettyPrint env d).isSome = true) :
    (showAllLoop env ipc param ret names).end_ =
      .ok (if ∃ n ∈ names, 0 ≤ (ipc.get n).1 then (if ∀ w, param = some w → w ∈ showParams then 0 else 1) else ret) := by
  induction names generalizing ret with
  | nil => simp [showAllLoop]
  | cons n l ih =>
    have ih' := fun ret => ih ret (fun m hm => hs m (by simp [hm])) (fun m hm => hp m (by simp [hm]))
    unfold showAllLoop
    rcases hg : ipc.get n with ⟨code, dev⟩
    simp only
    by_cases hc : code < 0
    · rw [if_pos hc, ih' ret]
      have : (∃ m ∈ n :: l, 0 ≤ (ipc.get m).1) ↔ ∃ m ∈ l, 0 ≤ (ipc.get m).1 := by
        simp only [List.mem_cons, exists_eq_or_imp, hg]
        constructor
        · rintro (h | h)
          · omega
          · exact h
        · exact .inr
      simp only [this]
    · rw [if_neg hc]
      have ex : ∃ m ∈ n :: l, 0 ≤ (ipc.get m).1 := ⟨n, by simp, by rw [hg]; simp only; omega⟩
      rw [if_pos ex]
      cases dev with
      | none => exact absurd (hs n (by simp) code hg) hc
      | some d =>
        cases param with
        | none =>
          obtain ⟨o, ho⟩ := Option.isSome_iff_exists.1 (hp n (by simp) code d hg)
          simp only [ho, ih', reduceCtorEq, false_implies, implies_true, if_true, ite_self]
        | some w =>
          simp only [Option.some.injEq, forall_eq']
          by_cases hw : w ∈ showParams
          · obtain ⟨o, ho⟩ := Option.isSome_iff_exists.1 ((ugly_isSome env d w true).2 hw)
            simp only [ho, ih', Option.some.injEq, forall_eq', if_pos hw, ite_self]
          · have : uglyPrint env d w true = none := by
              rw [← Option.not_isSome_iff_eq_none, ugly_isSome]; exact hw
            simp only [this, if_neg hw]

/-- C48, all interfaces: `wg show all [PARAM]` (and plain `wg show`) ends with status 0 exactly if the interfaces could be listed
and there was none, or at least one could be read and the parameter is known. -/
theorem c48_show_all (env : ShowEnv) (ipc : ShowIpc) (param : Option CStr)
    (hs : ∀ name code, (ipc.get name) = (code, none) → code < 0)
    (hp : ∀ name code d, ipc.get name = (code, some d) → (prettyPrint env d).isSome = true) :
    (showAll env ipc param).end_ = .ok 0 ↔
      ∃ names, ipc.list = some names ∧ (names = [] ∨ ((∃ n ∈ names, 0 ≤ (ipc.get n).1) ∧ ∀ w, param = some w → w ∈ showParams)) := by
  simp only [showAll]
  cases ipc.list with
  | none => simp
  | some names =>
    simp only [showAllLoop_status env ipc param names _ (fun n _ => hs n) (fun n _ => hp n), Option.some.injEq, exists_eq_left']
    by_cases hn : names = []
    · subst hn; simp
    · simp only [hn, false_or]
      by_cases h1 : ∃ n ∈ names, 0 ≤ (ipc.get n).1
      · rw [if_pos h1]
        by_cases h2 : ∀ w, param = some w → w ∈ showParams
        · rw [if_pos h2]; simp only [true_iff]; exact ⟨h1, h2⟩
        · rw [if_neg h2]; simp only [Res.ok.injEq]
          constructor
          · intro h; omega
          · intro h; exact absurd h.2 h2
      · rw [if_neg h1]; simp only [Res.ok.injEq]
        constructor
        · intro h; simp at h
        · intro h; exact absurd h.1 h1

/-- One interface that can be read; every other name is refused (ENODEV). -/
def oneIface : ShowIpc := ⟨some [b!"wg0"], fun n => if n = b!"wg0" then (0, some showSample) else (-19, none)⟩

theorem showSample_pretty : (prettyPrint stdShow showSample).isSome = true := by
  obtain ⟨ps, out, shown, -, -, -, h4, -⟩ := c35_listing stdShow insertionSort_ok stdShow_ok showSample (by decide) (by decide)
  rw [h4]; rfl

theorem oneIface_get : (∀ n code, oneIface.get n = (code, none) → code < 0) ∧
    (∀ n code d, oneIface.get n = (code, some d) → (prettyPrint stdShow d).isSome = true) := by
  refine ⟨fun n code h => ?_, fun n code d h => ?_⟩ <;> (simp only [oneIface] at h; split at h)
  · simp at h
  · simp only [Prod.mk.injEq, and_true] at h; omega
  · simp only [Prod.mk.injEq, Option.some.injEq] at h; rw [← h.2]; exact showSample_pretty
  · simp at h

-- the hypotheses of C48 are met, with both outcomes
example : (showAll stdShow oneIface (some b!"dump")).end_ = .ok 0 :=
  (c48_show_all stdShow oneIface _ oneIface_get.1 oneIface_get.2).2 ⟨_, rfl, .inr ⟨⟨b!"wg0", by simp, by decide⟩, fun w h => by cases h; decide⟩⟩
example : (showOne stdShow oneIface b!"wg1" none).end_ = .ok 1 := by
  rw [c48_show_one stdShow oneIface b!"wg1" none (oneIface_get.1 _) (oneIface_get.2 _)]; decide

theorem namesText_eq (names : List CStr) : namesText names = if names = [] then [] else List.intercalate [32] names ++ [10] := by
  induction names with
  | nil => rfl
  | cons n l ih =>
    cases l with
    | nil => simp [namesText, List.intercalate]
    | cons m l => rw [namesText, ih]; simp [List.intercalate]; simp

/-- C48: what each form of the command does, and the remaining statuses. -/
theorem c48_forms (env : ShowEnv) (ipc : ShowIpc) :
    showMain env ipc [] = showAll env ipc none ∧ showMain env ipc [b!"all"] = showAll env ipc none ∧
    (∀ w, showMain env ipc [b!"all", w] = showAll env ipc (some w)) ∧
    (∀ w, (showMain env ipc [b!"interfaces", w]).end_ = .ok 1) ∧
    (∀ names, ipc.list = some names → showMain env ipc [b!"interfaces"] =
      ⟨.ok 0, if names = [] then [] else List.intercalate [32] names ++ [10]⟩) ∧
    (∀ a, a ≠ b!"all" → a ≠ b!"interfaces" → a ≠ b!"-h" → a ≠ b!"--help" → a ≠ b!"help" → showMain env ipc [a] = showOne env ipc a none) ∧
    (∀ a w, a ≠ b!"all" → a ≠ b!"interfaces" → showMain env ipc [a, w] = showOne env ipc a (some w)) ∧
    (∀ a b c r, (showMain env ipc (a :: b :: c :: r)).end_ = .ok 1) := by
  refine ⟨rfl, rfl, fun _ => rfl, fun _ => rfl, ?_, ?_, ?_, fun _ _ _ _ => rfl⟩
  · intro names h
    rw [← namesText_eq]
    simp only [showMain, h]
    rw [if_neg (by decide), if_pos trivial]
  · intro a h1 h2 h3 h4 h5; simp only [showMain, if_neg h1, if_neg h2]; rw [if_neg (by simp [h3, h4, h5])]
  · intro a w h1 h2; simp only [showMain, if_neg h1, if_neg h2]

/-- For a userspace interface, pretty printing stays in its buffers, whatever the reply. -/
theorem pretty_total (senv : ShowEnv) (hq : IsQsort senv.qsort) (ho : OrdinaryTexts senv) (hnow : senv.now < 2 ^ 63) (env : Env)
    (pubOf : Key → Key) (name reply : CStr) (hn : Plain name) (r : Int) (d : Device)
    (h : userspaceGetReply env pubOf name reply = (r, some d)) : (prettyPrint senv d).isSome = true := by
  obtain ⟨h1, h2⟩ := userspaceGet_sane env pubOf name reply r d h
  have hn' : Plain d.name := by rw [h1]; intro c hc; exact hn c (List.mem_of_mem_take hc)
  obtain ⟨ps, out, shown, -, -, -, h4, -⟩ := c35_listing senv hq ho d hn' (fun p hp => by have := h2 p hp; omega)
  rw [h4]; rfl

/-- C28. For a userspace interface, `wg show` dereferences a null pointer exactly if the reply makes reading end with a positive
code, and then some `endpoint` line of the reply did not resolve. -/
theorem c28_show_crash_iff (senv : ShowEnv) (hq : IsQsort senv.qsort) (ho : OrdinaryTexts senv) (hnow : senv.now < 2 ^ 63) (env : Env)
    (pubOf : Key → Key) (name reply : CStr) (hn : Plain name) (param : Option CStr) (list : Option (List CStr)) :
    let ipc : ShowIpc := { list := list, get := fun n => userspaceGetReply env pubOf n reply }
    ((showOne senv ipc name param).end_ = .ub ↔ 0 < (userspaceGetReply env pubOf name reply).1) ∧
    (0 < (userspaceGetReply env pubOf name reply).1 → (userspaceGetReply env pubOf name reply).1 = ENETUNREACH ∧
      ∃ line ∈ (getlines reply).map cstr, ∃ v host port tick, IsKV line b!"endpoint" v ∧ IsEndpointText v host port ∧
        ∀ e, env.gai tick host port ≠ .found e) := by
  intro ipc
  refine ⟨?_, ?_⟩
  · have hend : ∀ r : Int × Option Device, (∃ ret s, r = getEnd ret s) → (r.1 = 0 ↔ r.2 ≠ none) := by
      rintro _ ⟨ret, s, rfl⟩
      simp only [getEnd]; split <;> simp_all
    have hcase : ∃ ret s, userspaceGetReply env pubOf name reply = getEnd ret s := by
      have gen : ∀ (lines : List CStr) s, ∃ ret s', getLoop env pubOf s lines = getEnd ret s' := by
        intro lines
        induction lines with
        | nil => intro s; exact ⟨_, s, rfl⟩
        | cons l ls ih =>
          intro s
          simp only [getLoop]
          split
          · exact ⟨_, s, rfl⟩
          · split
            · exact ⟨_, s, rfl⟩
            · split
              · exact ⟨_, s, rfl⟩
              · exact ih _
      exact gen _ _
    have hz := hend _ hcase
    have hget : ipc.get name = userspaceGetReply env pubOf name reply := rfl
    have hp := pretty_total senv hq ho hnow env pubOf name reply hn
    unfold showOne
    rw [hget]
    clear hget hcase hend
    generalize userspaceGetReply env pubOf name reply = rr at hz hp ⊢
    rcases rr with ⟨code, dev⟩
    simp only at hz ⊢
    by_cases hc : code < 0
    · rw [if_pos hc]; simp; omega
    · rw [if_neg hc]
      cases dev with
      | none =>
        have : ¬ code = 0 := fun h => (hz.1 h) rfl
        simp only [true_iff]; omega
      | some d =>
        have : code = 0 := hz.2 (by simp)
        cases param with
        | none => obtain ⟨o, ho⟩ := Option.isSome_iff_exists.1 (hp code d rfl); simp only [ho]; simp; omega
        | some w =>
          have hno : ¬ (0 < code) := by omega
          simp only [hno, iff_false]
          split <;> simp
  · intro h
    obtain ⟨h1, line, hl, v, host, port, tick, h2, h3, h4⟩ := getLoop_ret env pubOf _ _ (by simp [EPROTO]) h
    exact ⟨h1, line, hl, v, host, port, tick, h2, (splitEndpoint_iff _ _ _).1 h3, h4⟩

/-- C28: showconf reports an error for every unsuccessful reply and never dereferences a null pointer. -/
theorem c28_showconf_safe (o : OutEnv) (env : Env) (pubOf : Key → Key) (name reply : CStr) (list : Option (List CStr)) :
    let ipc : ShowIpc := { list := list, get := fun n => userspaceGetReply env pubOf n reply }
    ((userspaceGetReply env pubOf name reply).1 ≠ 0 ∧ showconfMain o ipc [name] = ⟨.ok 1, []⟩) ∨
    (∃ d, userspaceGetReply env pubOf name reply = (0, some d) ∧ showconfMain o ipc [name] = ⟨.ok 0, confText o d⟩) := by
  intro ipc
  have hcase : ∃ ret s, userspaceGetReply env pubOf name reply = getEnd ret s := by
    have gen : ∀ (lines : List CStr) s, ∃ ret s', getLoop env pubOf s lines = getEnd ret s' := by
      intro lines
      induction lines with
      | nil => intro s; exact ⟨_, s, rfl⟩
      | cons l ls ih =>
        intro s
        simp only [getLoop]
        split
        · exact ⟨_, s, rfl⟩
        · split
          · exact ⟨_, s, rfl⟩
          · split
            · exact ⟨_, s, rfl⟩
            · exact ih _
    exact gen _ _
  have hget : ipc.get name = userspaceGetReply env pubOf name reply := rfl
  obtain ⟨ret, s, h⟩ := hcase
  simp only [showconfMain, hget, h, getEnd]
  by_cases hr : ret = 0
  · subst hr; right; simp
  · left; simp [hr]

/-- C28, counterexample: a reply naming an endpoint that does not resolve makes `wg show wg0` crash, while showconf exits 1. -/
theorem c28_counterexample :
    let reply := b!"public_key=0000000000000000000000000000000000000000000000000000000000000000\nendpoint=host.invalid:1\nerrno=0\n\n"
    let ipc : ShowIpc := { list := some [b!"wg0"], get := fun n => userspaceGetReply stdEnv id n reply }
    (showMain stdShow ipc [b!"wg0"]).end_ = .ub ∧ (showMain stdShow ipc []).end_ = .ub ∧ (showconfMain stdOut ipc [b!"wg0"]).end_ = .ok 1 := by
  decide +kernel

-- the same reply with a numeric endpoint is shown
example :
    let reply := b!"public_key=0000000000000000000000000000000000000000000000000000000000000000\nendpoint=10.0.0.1:1\nerrno=0\n\n"
    let ipc : ShowIpc := { list := some [b!"wg0"], get := fun n => userspaceGetReply stdEnv id n reply }
    (showMain stdShow ipc [b!"wg0", b!"endpoints"]).out = b!"AAAAAAAAAAAAAAAAAAAAAAAAAAAAAAAAAAAAAAAAAAA=\t10.0.0.1:1\n" ∧
    (showMain stdShow ipc [b!"wg0", b!"endpoints"]).end_ = .ok 0 := by
  decide +kernel

end WG.Props
