import Verif.Proof.Resolve
import Verif.Model.Inet
import Verif.Props.Encoding
/-! C06-C09, C16-C18: the value parsers of config.c. -/
namespace WG.Props
open WG WG.Spec

/-- C06. On a platform whose `unsigned long` is wider than 32 bits, a fwmark value is accepted exactly when it has the
documented syntax, and the stored mark is the value written. -/
theorem c06_fwmark (env : Env) (hM : 0xffffffff < env.ulongMax) (s : CStr) (m : UInt32) :
    parseFwmark env s = some m ↔ IsFwmark s m.toNat := parseFwmark_iff env hM s m

example : 0xffffffff < stdEnv.ulongMax ∧ parseFwmark stdEnv b!"0xCA6C" = some 51820 ∧ parseFwmark stdEnv b!"oFF" = some 0
    ∧ parseFwmark stdEnv b!"4294967295" = some 0xffffffff ∧ parseFwmark stdEnv b!"4294967296" = none
    ∧ parseFwmark stdEnv b!"0x" = none ∧ parseFwmark stdEnv b!"-1" = none := by decide +kernel

/-- C06, counterexample where `unsigned long` has 32 bits (32-bit builds, Windows): a numeral far out of range
is accepted and gives the mark 0xffffffff, so the 64-bit statement cannot hold there. -/
theorem c06_fwmark_ilp32_counterexample :
    ∃ (env : Env) (s : CStr), env.ulongMax = 2 ^ 32 - 1 ∧ parseFwmark env s = some 0xffffffff ∧
      ¬ ∃ m : UInt32, IsFwmark s m.toNat := by
  refine ⟨{ stdEnv with ulongMax := 2 ^ 32 - 1 }, b!"99999999999", rfl, by decide +kernel, ?_⟩
  rintro ⟨m, h⟩
  have := (c06_fwmark stdEnv (by decide) b!"99999999999" m).2 h
  rw [show parseFwmark stdEnv b!"99999999999" = none by decide +kernel] at this
  cases this

/-- C07. A keepalive value is accepted exactly when it is `off` or a decimal number at most 65535
(any `unsigned long` of at least 32 bits, as C guarantees). -/
theorem c07_keepalive (env : Env) (hM : 2 ^ 32 - 1 ≤ env.ulongMax) (s : CStr) (m : UInt16) :
    parseKeepalive env s = some m ↔ IsKeepalive s m.toNat := parseKeepalive_iff env (by omega) s m

example : parseKeepalive stdEnv b!"25" = some 25 ∧ parseKeepalive stdEnv b!"65536" = none ∧
    parseKeepalive stdEnv b!"Off" = some 0 ∧ parseKeepalive stdEnv b!"0x19" = none := by decide +kernel

/-- C08. An AllowedIPs value is accepted with entries `as` exactly when it is empty or a comma-separated list whose
pieces denote `as` in order (address by the system parser, optional decimal prefix length within range). -/
theorem c08_allowedips (env : Env) (hM : 2 ^ 32 - 1 ≤ env.ulongMax) (v : CStr) (as : List AllowedIP) :
    (∃ w, parseAllowedips env v = some (as, w)) ↔ IsAllowedIPs env.pton4 env.pton6 v as :=
  parseAllowedips_iff env (by omega) v as

example : parseAllowedips stdEnv b!"10.0.0.1/32,fd00::/8,192.168.4.5"
    = some ([⟨.v4 #v[10, 0, 0, 1], 32⟩, ⟨.v6 #v[253, 0, 0, 0, 0, 0, 0, 0, 0, 0, 0, 0, 0, 0, 0, 0], 8⟩, ⟨.v4 #v[192, 168, 4, 5], 32⟩], [])
    ∧ parseAllowedips stdEnv b!"10.0.0.1/33" = none ∧ parseAllowedips stdEnv b!"10.0.0.1," = none := by decide +kernel

/-- C08: entries read always have a prefix length within their family's range. -/
theorem c08_prefix_in_range (env : Env) (hM : 2 ^ 32 - 1 ≤ env.ulongMax) (v : CStr) (as : List AllowedIP) (w : List Warning)
    (h : parseAllowedips env v = some (as, w)) : ∀ a ∈ as, a.cidr.toNat ≤ addrBits a.addr := by
  have h1 := (c08_allowedips env hM v as).1 ⟨w, h⟩
  rcases h1 with ⟨-, rfl⟩ | ⟨-, es, -, -, -, h1⟩
  · simp
  · clear h hM
    induction h1 with
    | nil => simp
    | cons hh _ ih =>
      intro a ha
      rcases List.mem_cons.1 ha with rfl | ha
      · obtain ⟨ip, -, -, (⟨-, h⟩ | ⟨m, n, -, -, hn, h⟩)⟩ := hh <;> omega
      · exact ih a ha

/-- C09. One entry: the host-part warning is printed exactly when some bit beyond the prefix is set, and then it prints
the address and prefix texts of the entry (never a null prefix string). -/
theorem c09_warning (env : Env) (e : CStr) (a : AllowedIP) (w : List Warning)
    (h : parseAllowedip env e = some (a, w)) :
    (w ≠ [] ↔ HasHostBits a) ∧ ∀ x ∈ w, ∃ m, x.mask = some m ∧ e = x.ip ++ c!"/" :: m := by
  simp only [parseAllowedip_unfold, Option.bind_eq_some_iff, Option.some.injEq, Prod.mk.injEq] at h
  obtain ⟨addr, h1, n, h2, rfl, rfl⟩ := h
  constructor
  · rw [← validateNetmask_iff]; split <;> simp_all
  · intro x hx
    split at hx
    · simp at hx
    · rename_i hv
      simp only [List.mem_singleton] at hx
      subst hx
      rcases split_first c!"/" e with hs | ⟨ip, m, rfl, hs⟩
      · exfalso
        apply hv
        rw [strsepOne_none _ _ hs] at h2
        cases hb : validateNetmask { addr := addr, cidr := UInt8.ofNat n } with
        | true => rfl
        | false =>
          obtain ⟨i, hi1, hi2, -⟩ := (validateNetmask_iff _).1 hb
          cases addr <;> simp [cidrOf] at h2 <;> subst h2 <;> simp [addrBits] at hi1 hi2 <;> omega
      · rw [strsepOne_some _ _ _ hs]
        exact ⟨m, rfl, rfl⟩

example : parseAllowedip stdEnv b!"10.1.2.3/8" = some (⟨.v4 #v[10, 1, 2, 3], 8⟩, [⟨b!"10.1.2.3", some b!"8"⟩])
    ∧ parseAllowedip stdEnv b!"10.0.0.0/8" = some (⟨.v4 #v[10, 0, 0, 0], 8⟩, []) := by decide +kernel

/-- C16. A key file yields `k` exactly when it could be opened and read without error and is either an empty seekable file
(then the zero key) or the base64 text of `k` followed by white space only. -/
theorem c16_keyfile (env : Env) (path : CStr) (k : Key) :
    parseKeyfile env path = some k ↔ ∃ f, env.file path = some f ∧ f.errAt = none ∧
      ((f.content = [] ∧ f.seekable = true ∧ k = zeroKey) ∨
       ∃ ws, f.content = rfc4648 k.toList ++ ws ∧ ∀ c ∈ ws, isSpace c = true) := by
  rw [parseKeyfile_iff, keyToBase64_rfc]

example : parseKeyfile { stdEnv with file := fun _ => some ⟨b!"AQIDBAUGBwgJCgsMDQ4PEBESExQVFhcYGRobHB0eHyA=" ++ [10, 32], none, true⟩ } b!"k"
    = some sampleKey := by decide +kernel

/-- C17. What one run of endpoint resolution does, for every sequence of resolver answers. With `tick` the number of
resolver calls made before: all calls but the last gave a transient error; it succeeds exactly on a found address, fails
exactly after a permanent error or a transient one with the retries used up, is still running only if every observed
call gave a transient error; at most N + 1 calls are made with N retries; and the waits between calls follow `wait`. -/
theorem c17_retries (env : Env) (host port : CStr) (fuel tick : Nat) (retries : Option Nat) :
    ResolveSpec env host port fuel tick retries 0
      (resolveLoop env host port fuel tick retries 1000000).1
      (resolveLoop env host port fuel tick retries 1000000).2.1
      (resolveLoop env host port fuel tick retries 1000000).2.2 :=
  resolve_spec env host port fuel tick retries 0

/-- C17: the waits start at one second, never shrink, never exceed twenty seconds. -/
theorem c17_wait_range (i : Nat) : 1000000 ≤ wait i ∧ wait i ≤ wait (i + 1) ∧ wait (i + 1) ≤ 20000000 := by
  have := wait_bounds i
  simp only [wait]; omega

/-- C17: the 32-bit computation of the next wait never wraps. -/
theorem c17_no_overflow (i : Nat) : wait i * 6 < 2 ^ 32 := by
  have := wait_bounds i; omega

/-- C17, whole `parse_endpoint` with a finite number of retries: it always ends, within N + 1 resolver calls. -/
theorem c17_finite_terminates (env : Env) (tick : Nat) (v : CStr) (N : Nat)
    (hN : parseDnsRetries env = .ok (some N)) :
    (parseEndpoint env tick v).1 ≠ .running ∧ (parseEndpoint env tick v).2.1 ≤ tick + (N + 1) := by
  unfold parseEndpoint
  simp only [hN]
  cases hs : splitEndpoint v with
  | none => simp
  | some hp =>
    obtain ⟨host, port⟩ := hp
    have H := c17_retries env host port (N + 1) tick (some N)
    simp only [attempts]
    generalize hx : resolveLoop env host port (N + 1) tick (some N) 1000000 = x at H
    obtain ⟨r, k, w⟩ := x
    obtain ⟨h1, h2, h3, h4, h5, h6⟩ := H
    simp only at *
    have hk := h4 N rfl
    have hr : r ≠ .running := by
      rintro rfl
      -- the last of the N + 1 calls cannot have been followed by a retry
      obtain ⟨e, -⟩ := h3
      have hlast : ∀ fuel tick n t, fuel = n + 1 → (resolveLoop env host port fuel tick (some n) t).1 ≠ .running := by
        intro fuel
        induction fuel with
        | zero => intro tick n t h; omega
        | succ fuel ih =>
          intro tick n t hf
          simp only [resolveLoop]
          cases env.gai tick host port with
          | found e => simp
          | permanent => simp
          | transient =>
            cases n with
            | zero => simp
            | succ n => simp only; exact ih _ _ _ (by omega)
      have := hlast (N + 1) tick N 1000000 rfl
      rw [hx] at this; exact this rfl
    cases r with
    | ok e => cases e <;> simp <;> omega
    | fail => simp; omega
    | exit1 => simp; omega
    | ub => simp; omega
    | running => exact absurd rfl hr

/-- C17: the retry count comes from the environment variable: 15 by default, `infinity` for no limit, a decimal number
that fits an `int`; anything else that is not such a number ends the process. -/
theorem c17_retry_count (env : Env) (hM : 2 ^ 32 - 1 ≤ env.ulongMax) :
    (env.retriesVar = none → parseDnsRetries env = .ok (some 15)) ∧
    (env.retriesVar = some b!"infinity" → parseDnsRetries env = .ok none) ∧
    (∀ v n, env.retriesVar = some v → IsDecimal v n →
      parseDnsRetries env = if n ≤ 2147483647 then .ok (some n) else .exit1) ∧
    ((∃ r, parseDnsRetries env = .ok r) ∨ parseDnsRetries env = .exit1) := by
  refine ⟨?_, ?_, ?_, ?_⟩
  · intro h; simp [parseDnsRetries, h]
  · intro h; simp [parseDnsRetries, h]
  · rintro v n h ⟨hne, hall, rfl⟩
    have hinf : v ≠ b!"infinity" := by
      rintro rfl; exact absurd (hall 105 (by simp)) (by decide)
    simp only [parseDnsRetries, h, if_neg hinf, strtoul10_all _ _ hne hall]
    by_cases hv : decVal v ≤ 2147483647
    · have : ¬ decVal v > env.ulongMax := by omega
      simp [this, hv]
    · by_cases hv2 : decVal v > env.ulongMax
      · have : env.ulongMax > 2147483647 := by omega
        simp [hv2, hv, this]
      · simp [hv2, hv]
  · unfold parseDnsRetries
    split
    · exact .inl ⟨_, rfl⟩
    · split
      · exact .inl ⟨_, rfl⟩
      · simp only; split
        · exact .inr rfl
        · exact .inl ⟨_, rfl⟩

-- two transient answers, then found: three calls, two waits
example : resolveLoop { stdEnv with gai := fun n _ _ => if n < 2 then .transient else .found (.in4 #v[1, 2, 3, 4] 51820) }
    b!"example.org" b!"51820" 16 0 (some 15) 1000000 = (.ok (.in4 #v[1, 2, 3, 4] 51820), 3, [1000000, 1200000]) := by
  decide +kernel

/-- C18. An endpoint text is split exactly as documented, and refused exactly when no such split exists. -/
theorem c18_split (v host port : CStr) : splitEndpoint v = some (host, port) ↔ IsEndpointText v host port :=
  splitEndpoint_iff v host port

/-- C18: splitting inverts the two printed forms. -/
theorem c18_inverts_printing (host port : CStr) (hp : port ≠ []) (hc : c!":" ∉ port) :
    (c!"]" ∉ host → splitEndpoint (c!"[" :: host ++ c!"]" :: c!":" :: port) = some (host, port)) ∧
    (host.head? ≠ some c!"[" → splitEndpoint (host ++ c!":" :: port) = some (host, port)) := by
  constructor
  · intro h; exact (c18_split _ _ _).2 ⟨hp, .inl ⟨rfl, h⟩⟩
  · intro h
    refine (c18_split _ _ _).2 ⟨hp, .inr ⟨?_, rfl, hc⟩⟩
    cases host with
    | nil => simp
    | cons c t => simpa using h

example : splitEndpoint b!"[fd00::1]:51820" = some (b!"fd00::1", b!"51820") ∧
    splitEndpoint b!"1.2.3.4:80" = some (b!"1.2.3.4", b!"80") ∧ splitEndpoint b!"host:" = none ∧
    splitEndpoint b!"[::1]" = none := by decide +kernel

end WG.Props
