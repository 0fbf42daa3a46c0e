{
 "claims": [
  {
   "property": "C01",
   "status": "proved",
   "theorems": [
    "WG.Props.c01_base64_inverse",
    "WG.Props.c01_roundtrip",
    "WG.Props.c01_print_injective",
    "WG.Props.c01_signedness_irrelevant",
    "WG.Props.c01_ub_iff_invalid_char"
   ],
   "note": "exact characterisation of key_from_base64 for every byte string; GCC/Clang semantics of << on negative int (UB situation characterised by c01_ub_iff_invalid_char)"
  },
  {
   "property": "C02",
   "status": "proved",
   "theorems": [
    "WG.Props.c02_is_rfc4648",
    "WG.Props.c02_shape"
   ],
   "note": ""
  },
  {
   "property": "C03",
   "status": "proved",
   "theorems": [
    "WG.Props.c03_hex_text",
    "WG.Props.c03_hex_parse",
    "WG.Props.c03_roundtrip"
   ],
   "note": ""
  },
  {
   "property": "C04",
   "status": "proved",
   "theorems": [
    "WG.Props.c04_zero_test"
   ],
   "note": ""
  },
  {
   "property": "C05",
   "status": "proved",
   "theorems": [
    "WG.Props.c05_classes",
    "WG.Props.c05_eof"
   ],
   "note": ""
  },
  {
   "property": "C06",
   "status": "proved",
   "theorems": [
    "WG.Props.c06_fwmark",
    "WG.Props.c06_fwmark_ilp32_counterexample"
   ],
   "note": "for unsigned long wider than 32 bits; the 32-bit case is refuted by a counterexample, as the property says"
  },
  {
   "property": "C07",
   "status": "proved",
   "theorems": [
    "WG.Props.c07_keepalive"
   ],
   "note": ""
  },
  {
   "property": "C08",
   "status": "proved",
   "theorems": [
    "WG.Props.c08_allowedips",
    "WG.Props.c08_prefix_in_range"
   ],
   "note": ""
  },
  {
   "property": "C09",
   "status": "proved",
   "theorems": [
    "WG.Props.c09_warning"
   ],
   "note": ""
  },
  {
   "property": "C10",
   "status": "proved",
   "theorems": [
    "WG.Props.c10_only_cleaned_text_matters",
    "WG.Props.c10_blank",
    "WG.Props.c10_key_case",
    "WG.Props.c10_header_case"
   ],
   "note": ""
  },
  {
   "property": "C11",
   "status": "proved",
   "theorems": [
    "WG.Props.c11_all_or_nothing",
    "WG.Props.c11_bad_file_never_applied",
    "WG.Props.c11_good_file_applied",
    "WG.Props.c11_read_error_counterexample"
   ],
   "note": "also proved: a read error in the middle of the file is taken for its end (counterexample)"
  },
  {
   "property": "C12",
   "status": "proved",
   "theorems": [
    "WG.Props.c12_file_peers_have_keys",
    "WG.Props.c12_cmd_peers_have_keys"
   ],
   "note": ""
  },
  {
   "property": "C13",
   "status": "proved",
   "theorems": [
    "WG.Props.c13_setconf_flags",
    "WG.Props.c13_setconf_omitted",
    "WG.Props.c13_addconf_flags"
   ],
   "note": ""
  },
  {
   "property": "C14",
   "status": "proved",
   "theorems": [
    "WG.Props.c14_read_sound",
    "WG.Props.c14_read_complete",
    "WG.Props.c14_read_safe"
   ],
   "note": ""
  },
  {
   "property": "C15",
   "status": "proved",
   "theorems": [
    "WG.Props.c15_set_sound",
    "WG.Props.c15_set_complete",
    "WG.Props.c15_set_all_or_nothing"
   ],
   "note": ""
  },
  {
   "property": "C16",
   "status": "proved",
   "theorems": [
    "WG.Props.c16_keyfile"
   ],
   "note": ""
  },
  {
   "property": "C17",
   "status": "proved",
   "theorems": [
    "WG.Props.c17_retries",
    "WG.Props.c17_wait_range",
    "WG.Props.c17_no_overflow",
    "WG.Props.c17_finite_terminates",
    "WG.Props.c17_retry_count"
   ],
   "note": ""
  },
  {
   "property": "C18",
   "status": "proved",
   "theorems": [
    "WG.Props.c18_split",
    "WG.Props.c18_inverts_printing"
   ],
   "note": ""
  },
  {
   "property": "C19",
   "status": "proved",
   "theorems": [
    "WG.Props.c19_peers_are_the_files"
   ],
   "note": "assuming the interface does not change between the get and the set of syncconf; driver semantics as in Spec.Driver"
  },
  {
   "property": "C20",
   "status": "proved",
   "theorems": [
    "WG.Props.c20_staying_peers_undisturbed",
    "WG.Props.c20_duplicate_runtime_counterexample"
   ],
   "note": "for interfaces that report each peer once; a counterexample shows the hypothesis is needed"
  },
  {
   "property": "C21",
   "status": "proved",
   "theorems": [
    "WG.Props.c21_agrees_with_setconf",
    "WG.Props.c21_unmentioned_settings_stay_counterexample"
   ],
   "note": "including the counterexample for unmentioned settings"
  },
  {
   "property": "C22",
   "status": "proved",
   "theorems": [
    "WG.Props.c22_setconf_independent_of_past",
    "WG.Props.c22_setconf_peers"
   ],
   "note": ""
  },
  {
   "property": "C23",
   "status": "proved",
   "theorems": [
    "WG.Props.c23_set_text_means_request",
    "WG.Props.c23_set_effect",
    "WG.Props.c23_nameinfo_counterexample"
   ],
   "note": "for every server whose readers read canonical texts correctly, while getnameinfo succeeds; the silent loss of an endpoint when it fails is a proved counterexample; the hypotheses are discharged for a model of glibc printing and parsing"
  },
  {
   "property": "C24",
   "status": "proved",
   "theorems": [
    "WG.Props.c24_set_succeeds_iff",
    "WG.Props.c24_set_code"
   ],
   "note": ""
  },
  {
   "property": "C25",
   "status": "proved",
   "theorems": [
    "WG.Props.c25_get_device_xor_error",
    "WG.Props.c25_get_zero_only_complete",
    "WG.Props.c25_unknown_keys_skipped"
   ],
   "note": ""
  },
  {
   "property": "C26",
   "status": "proved",
   "theorems": [
    "WG.Props.c26_get_reads_report",
    "WG.Props.c26_counter_saturates_counterexample"
   ],
   "note": "values within their documented ranges; a counter above 2^64-1 is read as 2^64-1 (counterexample)"
  },
  {
   "property": "C27",
   "status": "proved",
   "theorems": [
    "WG.Props.c27_prefix_in_range",
    "WG.Props.c27_truncation_counterexample"
   ],
   "note": "range theorem and the counterexample to the stronger claim"
  },
  {
   "property": "C28",
   "status": "proved",
   "theorems": [
    "WG.Props.c28_show_crash_iff",
    "WG.Props.c28_showconf_safe",
    "WG.Props.c28_counterexample"
   ],
   "note": "userspace interfaces: exactly when show dereferences a null pointer, a concrete reply for which it does, and that showconf never does; assumes qsort sorts, printed host names without escapes, clock below 2^63"
  },
  {
   "property": "C29",
   "status": "proved",
   "theorems": [
    "WG.c29_fragmentation_preserves_meaning"
   ],
   "note": "names of at most 15 bytes (longer ones are cut before, C47), prefix lengths in range, a buffer of 272 to 65535 bytes; little-endian host"
  },
  {
   "property": "C30",
   "status": "proved",
   "theorems": [
    "WG.c30_messages_fit_and_send_everything_once",
    "WG.c30_sending_ends",
    "WG.c30_acknowledged"
   ],
   "note": "as C29; ending requires that each message is answered"
  },
  {
   "property": "C31",
   "status": "proved",
   "theorems": [
    "WG.c31_dump_read",
    "WG.c31_interrupted_dump_repeated",
    "WG.c31_counterexample_empty_continuation"
   ],
   "note": "a continuation that is itself continued brings at least one allowed IP and peers are distinct; without the former the program dereferences a null pointer (counterexample); interrupted dumps are repeated; little-endian host"
  },
  {
   "property": "C32",
   "status": "proved",
   "theorems": [
    "WG.c32_dump_reading_stays_inside",
    "WG.c32_ack_reading_stays_inside",
    "WG.c32_receiving_stays_inside",
    "WG.c32_attributes_put_are_found",
    "WG.c32_finding_invalid_ip_accepted",
    "WG.c32_counterexample_huge_length",
    "WG.c32_counterexample_unterminated_name"
   ],
   "note": "for datagrams of a multiple of four bytes, message length fields below 2^31 and interface names with a NUL; both last conditions are necessary (counterexamples)"
  },
  {
   "property": "C33",
   "status": "proved",
   "theorems": [
    "WG.Props.c33_device",
    "WG.Props.c33_show",
    "WG.Props.c33_columns"
   ],
   "note": "pretty output, and which single-field listings and showconf print secrets"
  },
  {
   "property": "C34",
   "status": "proved",
   "theorems": [
    "WG.Props.c34_dump_is_table",
    "WG.Props.c34_dump_reads_back",
    "WG.Props.c34_dump_determines_facts",
    "WG.Props.c34_listing_is_dump_columns",
    "WG.Props.c34_standard"
   ],
   "note": "table, recoverability and agreement of listings with dump columns; column contents without tabs or line feeds is a hypothesis on name and endpoint texts, discharged for glibc printing"
  },
  {
   "property": "C35",
   "status": "proved",
   "theorems": [
    "WG.Props.c35_listing",
    "WG.Props.c35_no_overflow"
   ],
   "note": "handshake times as reported by the kernel or userspace (nonnegative, below 2^63); differences of other times overflow in C"
  },
  {
   "property": "C36",
   "status": "proved",
   "theorems": [
    "WG.Props.c36_unique",
    "WG.Props.c36_ago",
    "WG.Props.c36_every"
   ],
   "note": ""
  },
  {
   "property": "C37",
   "status": "proved",
   "theorems": [
    "WG.Props.c37_filter",
    "WG.Props.c37_plain",
    "WG.Props.c37_mode"
   ],
   "note": ""
  },
  {
   "property": "C38",
   "status": "proved",
   "theorems": [
    "WG.Props.c38_setconf_reads_showconf",
    "WG.Props.c38_reproduces_interface",
    "WG.Props.c38_nameinfo_counterexample",
    "WG.Props.c38_standard"
   ],
   "note": "while getnameinfo succeeds (counterexample otherwise) and addresses print and read back; discharged for glibc printing without flow labels and scopes"
  },
  {
   "property": "C39",
   "status": "proved",
   "theorems": [
    "WG.Props.c39_random_bytes_exact",
    "WG.Props.c39_genkey",
    "WG.Props.c39_clamped_key_unique",
    "WG.Props.c39_genpsk",
    "WG.Props.c39_arguments_refused",
    "WG.Props.c39_warning"
   ],
   "note": "POSIX build; for every way the system hands out random bytes in pieces; failed writes to standard output not modelled"
  },
  {
   "property": "C40",
   "status": "proved",
   "theorems": [
    "WG.Props.c40_pubkey",
    "WG.Props.c40_arguments_refused"
   ],
   "note": "with the 64-bit curve code, which is proved equal to RFC 7748 (C41)"
  },
  {
   "property": "C41",
   "status": "proved",
   "theorems": [
    "WG.Props.c41_is_rfc7748",
    "WG.Props.c41_public_key"
   ],
   "note": "u64 as naturals modulo 2^64, u128 modulo 2^128; equality with RFC 7748 over the field Z/(2^255-19), whose modulus is proved prime"
  },
  {
   "property": "C42",
   "status": "proved",
   "theorems": [
    "WG.Props.c42_is_rfc7748",
    "WG.Props.c42_public_key",
    "WG.Props.c42_builds_agree",
    "WG.Props.c42_pubkey"
   ],
   "note": "the straight-line field arithmetic is transliterated by tools/fiat32.py; everything reduced to 32 or 64 bits as in C"
  },
  {
   "property": "C43",
   "status": "proved",
   "theorems": [
    "WG.Props.c43_fixed_bits_irrelevant",
    "WG.Props.c43_genkey_pubkey"
   ],
   "note": ""
  },
  {
   "property": "C44",
   "status": "proved",
   "theorems": [
    "WG.c44_names_added",
    "WG.c44_walk",
    "WG.c44_list",
    "WG.c44_list_changing"
   ],
   "note": "names below 2^61 bytes in total; realloc failures modelled, the failure of strdup for an empty list is not; kernel dump as in C53"
  },
  {
   "property": "C45",
   "status": "proved",
   "theorems": [
    "WG.c45_default_is_show",
    "WG.c45_subcommands",
    "WG.c45_version_and_help",
    "WG.c45_other_words",
    "WG.c45_usage_lists_subcommands"
   ],
   "note": ""
  },
  {
   "property": "C46",
   "status": "proved",
   "theorems": [
    "WG.c46_paths",
    "WG.c46_exact",
    "WG.c46_inside",
    "WG.c46_counterexample_truncated",
    "WG.c46_choice"
   ],
   "note": "whatever the system answers, also when it changes between the calls; truncation to 107 bytes is a proved counterexample"
  },
  {
   "property": "C47",
   "status": "proved",
   "theorems": [
    "WG.c47_target",
    "WG.c47_named",
    "WG.c47_counterexample_long_name"
   ],
   "note": "including the counterexample for longer names"
  },
  {
   "property": "C48",
   "status": "proved",
   "theorems": [
    "WG.Props.c48_show_one",
    "WG.Props.c48_show_all",
    "WG.Props.c48_forms"
   ],
   "note": "given that get reports a device or a negative code (C28 for the exception)"
  },
  {
   "property": "C49",
   "status": "proved",
   "theorems": [
    "WG.Props.c49_free",
    "WG.Props.c49_free_null",
    "WG.Props.c49_every_device",
    "WG.Props.c49_double_free",
    "WG.Props.c49_set",
    "WG.Props.c49_setconf",
    "WG.Props.c49_refines"
   ],
   "note": "for the configuration commands (set, setconf, addconf, syncconf) with every pattern of failing allocations; the failure of getline's own buffer, and lists built by ipc get, are not modelled with a heap"
  },
  {
   "property": "C50",
   "status": "proved",
   "theorems": [
    "WG.c50_existing",
    "WG.c50_success",
    "WG.c50_cleanup",
    "WG.c50_no_signal_end",
    "WG.c50_interface_deleted",
    "WG.c50_dns_removed",
    "WG.c50_undo_failure_leaves_interface",
    "WG.c50_signal_leaves_dns",
    "WG.c50_race_deletes_foreign"
   ],
   "note": "Linux script under an arbitrary environment; signals while a trap is running, and SIGKILL, are not modelled; exceptions are proved counterexamples"
  },
  {
   "property": "C51",
   "status": "proved",
   "theorems": [
    "WG.c51_determined",
    "WG.c51_strip",
    "WG.c51_dropped_refused",
    "WG.c51_wg_reads",
    "WG.c51_plain",
    "WG.c51_nul"
   ],
   "note": "Linux script as bash 5 interprets it; the last theorem is for files without NUL bytes (c51_nul shows why)"
  },
  {
   "property": "C52",
   "status": "proved",
   "theorems": [
    "WG.c52_crash_safe",
    "WG.c52_saved",
    "WG.c52_nothing_written",
    "WG.c52_down_crash_safe"
   ],
   "note": "a written file is assumed to have arbitrary contents after a crash until sync returned, renaming is atomic, other programs and hooks do not touch the two files; directory entries are assumed durable after rename or absent"
  },
  {
   "property": "C53",
   "status": "proved",
   "theorems": [
    "WG.c53_kernel_interfaces",
    "WG.c53_counterexample_error_ignored",
    "WG.c53_counterexample_unterminated_kind"
   ],
   "note": "well-formed dumps over any fragmentation; an error code in the final message is ignored and unterminated strings are read past the end (proved counterexamples)"
  },
  {
   "property": "C54",
   "status": "proved",
   "theorems": [
    "WG.c54_values",
    "WG.c54_refused"
   ],
   "note": "pathname expansion of the words of Address and DNS is not modelled"
  },
  {
   "property": "C55",
   "status": "proved",
   "theorems": [
    "WG.c55_iface",
    "WG.c55_valid",
    "WG.c55_bare_file"
   ],
   "note": "including the counterexample of a bare file name"
  },
  {
   "property": "C56",
   "status": "proved",
   "theorems": [
    "WG.c56_mtu",
    "WG.c56_configured",
    "WG.c56_determined"
   ],
   "note": "numbers printed by ip are taken as decimal; overflow of shell arithmetic (2^63) not modelled"
  },
  {
   "property": "C57",
   "status": "proved",
   "theorems": [
    "WG.c57_routes",
    "WG.c57_off",
    "WG.c57_table",
    "WG.c57_network",
    "WG.c57_default",
    "WG.c57_one_table"
   ],
   "note": "for every sort function that puts longer prefixes first; c57_one_table assumes that wg shows the mark last set and that hooks do not change it"
  },
  {
   "property": "C58",
   "status": "proved",
   "theorems": [
    "WG.c58_listed",
    "WG.c58_not_listed",
    "WG.c58_success",
    "WG.c58_nothing_before_hooks_and_save"
   ],
   "note": "Linux script under an arbitrary environment"
  },
  {
   "property": "C59",
   "status": "proved",
   "theorems": [
    "WG.c59_reads_back",
    "WG.c59_restores",
    "WG.c59_ampersand",
    "WG.c59_empty_interface",
    "WG.c59_peer_address",
    "WG.c59_search_lost"
   ],
   "note": "numeric addresses, showconf output with at least one setting; with bash 5.2 or later the kept settings must not contain & or a double backslash; the exceptions are proved counterexamples"
  },
  {
   "property": "C60",
   "status": "proved",
   "theorems": [
    "WG.c60_foreign_rules_stay",
    "WG.c60_rules_removed",
    "WG.c60_no_default",
    "WG.c60_prefix_blocks",
    "WG.c60_up_down",
    "WG.c60_shared",
    "WG.c60_selector",
    "WG.c60_left_behind"
   ],
   "note": "rules as ip rule show prints them, ip rule delete removing the first rule with the given table (and suppress_prefixlength); exact removal needs suppress rules without selector; limits proved as counterexamples"
  },
  {
   "property": "C61",
   "status": "proved",
   "theorems": [
    "WG.c61_nft_others",
    "WG.c61_nft_removed",
    "WG.c61_ipt_others",
    "WG.c61_ipt_removed",
    "WG.c61_up_others",
    "WG.c61_up_down",
    "WG.c61_unreported"
   ],
   "note": "nft -f applied as a whole or not at all; iptables-restore in order, possibly failing half-way; an inserted rule is listed with the same comment; nothing else changes the firewall meanwhile"
  },
  {
   "property": "C62",
   "status": "proved",
   "theorems": [
    "WG.Props.c62_setconf",
    "WG.Props.c62_set",
    "WG.Props.c62_socket_code",
    "WG.Props.c62_failure",
    "WG.Props.c62_kinds_agree",
    "WG.Props.c62_copy",
    "WG.Props.c62_syncconf"
   ],
   "note": "composition of C11, C15, C19, C21, C23, C24, C26, C29, C31, C38 and C46; hypotheses of those on the system (buffer size, nonzero errnos, servers read canonical texts) collected in Spec.Sane; for sockets, endpoints that can be printed"
  },
  {
   "property": "C63",
   "status": "proved",
   "theorems": [
    "WG.Props.c63_asks_for_the_family",
    "WG.Props.c63_family_found",
    "WG.Props.c63_family_only_from_the_reply",
    "WG.Props.c63_refused",
    "WG.Props.c63_set_requests_go_to_the_family",
    "WG.Props.c63_set_releases",
    "WG.Props.c63_get_requests_go_to_the_family",
    "WG.Props.c63_get_releases",
    "WG.Props.c63_get_is_the_dump",
    "WG.Props.c63_links",
    "WG.Props.c63_set_is_the_operation",
    "WG.Props.c63_counterexample_acknowledgement_alone"
   ],
   "note": "buffers below 2^30 bytes; free() is taken to preserve errno; getting needs a name without NUL; setting needs C29 preconditions; the state of the errno after a failed close is not used"
  },
  {
   "property": "C64",
   "status": "proved",
   "theorems": [
    "WG.c64_help",
    "WG.c64_wrong_usage",
    "WG.c64_not_root",
    "WG.c64_refused",
    "WG.c64_accepted",
    "WG.c64_up_configures",
    "WG.c64_down",
    "WG.c64_save"
   ],
   "note": "Linux script; a failing exec of sudo is not modelled; the content of the usage message is not modelled"
  },
  {
   "property": "C65",
   "status": "proved",
   "theorems": [
    "WG.c65_set",
    "WG.c65_set_fails",
    "WG.c65_set_effect",
    "WG.c65_get",
    "WG.c65_get_fails",
    "WG.c65_reports",
    "WG.c65_counterexample_ipv6_endpoint",
    "WG.c65_counterexample_long_name",
    "WG.c65_list",
    "WG.c65_list_none"
   ],
   "note": "64-bit little endian layout; the kernel answers with the size of its answer and with the whole answer if it fits; calloc of the device and its parts is taken to succeed; exceptions are proved counterexamples"
  },
  {
   "property": "C66",
   "status": "proved",
   "theorems": [
    "WG.c66_set",
    "WG.c66_set_sent",
    "WG.c66_set_effect",
    "WG.c66_get",
    "WG.c66_reports",
    "WG.c66_get_fails",
    "WG.c66_counterexample_positive_error",
    "WG.c66_counterexample_short_address",
    "WG.c66_counterexample_long_name"
   ],
   "note": "nvlist pack and unpack taken as lossless, names in a list unique (the library refuses duplicates); calloc in the get direction is taken to succeed; listing is the same text as on OpenBSD (c65_list); exceptions are proved counterexamples"
  },
  {
   "property": "C67",
   "status": "proved",
   "theorems": [
    "WG.Props.c67_public_key",
    "WG.Props.c67_same_as_wg",
    "WG.Props.c67_from_base64",
    "WG.Props.c67_roundtrip",
    "WG.Props.c67_counterexample_key_overwritten",
    "WG.Props.c67_preshared_key",
    "WG.Props.c67_private_key",
    "WG.Props.c67_is_zero"
   ],
   "note": "asserts enabled; erasing of temporaries not modelled; right shift of negative numbers arithmetic, as in gcc and clang; the exception is a proved counterexample"
  },
  {
   "property": "C68",
   "status": "proved",
   "theorems": [
    "WG.Props.c68_get_like_wg",
    "WG.Props.c68_get_dump",
    "WG.Props.c68_get_refused",
    "WG.Props.c68_counterexample_interrupted",
    "WG.Props.c68_get_requests",
    "WG.Props.c68_get_releases",
    "WG.Props.c68_set",
    "WG.Props.c68_names",
    "WG.Props.c68_names_outside",
    "WG.Props.c68_change_requests",
    "WG.Props.c68_change_answer",
    "WG.Props.c68_counterexample_other_answer",
    "WG.Props.c68_counterexample_no_answer",
    "WG.Props.c68_counterexample_long_name"
   ],
   "note": "little endian; the exceptions are proved counterexamples; releasing of the buffer of names is the caller's"
  },
  {
   "property": "C69",
   "status": "proved",
   "theorems": [
    "WG.c69_set",
    "WG.c69_set_fails",
    "WG.c69_set_effect",
    "WG.c69_counterexample_mark",
    "WG.c69_get",
    "WG.c69_get_fails",
    "WG.c69_counterexample_leak",
    "WG.c69_handshake",
    "WG.c69_reports"
   ],
   "note": "little endian; the driver is any function of the buffer; the exceptions are proved counterexamples"
  },
  {
   "property": "C70",
   "status": "proved",
   "theorems": [
    "WG.c70_hash",
    "WG.c70_list",
    "WG.c70_open",
    "WG.c70_pipe_owner",
    "WG.c70_pipes",
    "WG.c70_has_pipe",
    "WG.c70_failed_list",
    "WG.c70_list_devices",
    "WG.c70_goes",
    "WG.c70_counterexample_name127",
    "WG.c70_counterexample_any_adapter",
    "WG.c70_counterexample_silent",
    "WG.c70_counterexample_endless",
    "WG.c70_counterexample_list_incomplete",
    "WG.c70_counterexample_pipes_unlistable"
   ],
   "note": "devices show their properties as ShowsDev says; adapter names unique for the open theorem; the exceptions are proved counterexamples"
  },
  {
   "property": "C71",
   "status": "proved",
   "theorems": [
    "WG.c71_getline",
    "WG.c71_lines",
    "WG.c71_counterexample_read_error",
    "WG.c71_prefix",
    "WG.c71_counterexample_memory",
    "WG.c71_counterexample_small",
    "WG.c71_strsep",
    "WG.c71_strsep_all"
   ],
   "note": "streams in binary mode; BUFSIZ 512; content below 2^60 bytes"
  },
  {
   "property": "C72",
   "status": "proved",
   "theorems": [
    "WG.Hl.c72_spans",
    "WG.Hl.c72_prints",
    "WG.Hl.c72_only_colours",
    "WG.Hl.c72_error_colour",
    "WG.Hl.c72_counterexample_null",
    "WG.Hl.c72_counterexample_list",
    "WG.Hl.c72_counterexample_lost"
   ],
   "note": "built without MOBILE_WGQUICK_SUBSET; 64-bit size_t; input of highlight at most 1048575 bytes"
  },
  {
   "property": "C73",
   "status": "proved",
   "theorems": [
    "WG.Hl.c73_parts",
    "WG.Hl.c73_all"
   ],
   "note": "as C72; memory suffices"
  },
  {
   "property": "C74",
   "status": "proved",
   "theorems": [
    "WG.Hl.c74_syntax",
    "WG.Hl.c74_accepted",
    "WG.Hl.c74_counterexample_empty_item",
    "WG.Hl.c74_counterexample_no_key",
    "WG.Hl.c74_counterexample_crlf"
   ],
   "note": "inet_pton as in glibc; decimal ports read as numbers by getaddrinfo; endpoints resolve; the exceptions are proved counterexamples"
  },
  {
   "property": "C75",
   "status": "proved",
   "theorems": [
    "WG.Props.c75_up",
    "WG.Props.c75_exit",
    "WG.Props.c75_counterexample_foreign",
    "WG.Props.c75_counterexample_temp",
    "WG.Props.c75_counterexample_interface",
    "WG.Props.c75_counterexample_dns",
    "WG.Props.c75_counterexample_dns_darwin",
    "WG.Props.c75_counterexample_status",
    "WG.Props.c75_counterexample_ignored"
   ],
   "note": "builtins and traps as in Model/BsdSh; a second signal during the trap not modelled; the exceptions are proved counterexamples"
  },
  {
   "property": "C76",
   "status": "proved",
   "theorems": [
    "WG.Props.c76_up",
    "WG.Props.c76_monitor",
    "WG.Props.c76_counterexample_monitor_dies"
   ],
   "note": "routes are identified by family and text of the destination; nobody else changes them; hosts that had a route of their own are no endpoints (counterexample proved); the same failures as hypotheses are shown to be needed by counterexamples"
  },
  {
   "property": "C77",
   "status": "proved",
   "theorems": [
    "WG.Props.c77_end",
    "WG.Props.c77_counterexample_user_route",
    "WG.Props.c77_counterexample_v6",
    "WG.Props.c77_counterexample_interrupted",
    "WG.Props.c77_counterexample_temp"
   ],
   "note": "as C76; on FreeBSD the monitor can make its temporary directory; the exceptions are proved counterexamples"
  },
  {
   "property": "C78",
   "status": "proved",
   "theorems": [
    "WG.Props.c78_up",
    "WG.Props.c78_exit",
    "WG.Props.c78_counterexample_name"
   ],
   "note": "routes identified by family and text of the destination, as in C76; names with . or + excluded (proved counterexample)"
  },
  {
   "property": "C79",
   "status": "proved",
   "theorems": [
    "WG.Props.c79_up",
    "WG.Props.c79_monitor",
    "WG.Props.c79_counterexample_default"
   ],
   "note": "numbers as bash prints and reads them in decimal"
  },
  {
   "property": "C80",
   "status": "proved",
   "theorems": [
    "WG.Props.c80_save",
    "WG.Props.c80_crash_safe",
    "WG.Props.c80_saved",
    "WG.Props.c80_kept",
    "WG.Props.c80_counterexample_prefix",
    "WG.Props.c80_counterexample_scope"
   ],
   "note": "crash model as in C52; sync is taken to make the file durable, which sync(8) of the BSDs does for the whole system and only schedules"
  },
  {
   "property": "C81",
   "status": "proved",
   "theorems": [
    "WG.Props.c81_down",
    "WG.Props.c81_exit",
    "WG.Props.c81_crash_safe",
    "WG.Props.c81_saved",
    "WG.Props.c81_counterexample_hooks",
    "WG.Props.c81_counterexample_status"
   ],
   "note": "signals inside traps are not modelled (as in C75)"
  },
  {
   "property": "C82",
   "status": "proved",
   "theorems": [
    "WG.Props.c82_up",
    "WG.Props.c82_monitor",
    "WG.Props.c82_end",
    "WG.Props.c82_counterexample_away"
   ],
   "note": "the system keeps the settings of the service as told and answers with one value per line or a sentence (KeepsSetting); values are words; nobody else changes them; the service stays in the list once seen (needed: counterexample); setting commands for it succeed"
  },
  {
   "property": "C83",
   "status": "proved",
   "theorems": [
    "WG.Props.c83_help",
    "WG.Props.c83_wrong_usage",
    "WG.Props.c83_not_root",
    "WG.Props.c83_refused",
    "WG.Props.c83_accepted",
    "WG.Props.c83_up_configures",
    "WG.Props.c83_counterexample_temp_left",
    "WG.Props.c83_counterexample_bare",
    "WG.Props.c83_counterexample_root"
   ],
   "note": "the file system and the output of launchctl do not change while the options are read; c83_up_configures joins the configuration given to wg setconf with C62"
  },
  {
   "property": "C84",
   "status": "proved",
   "theorems": [
    "WG.Props.c84_accepted",
    "WG.Props.c84_refused",
    "WG.Props.c84_name",
    "WG.Props.c84_iface",
    "WG.Props.c84_settings",
    "WG.Props.c84_counterexample_long_name",
    "WG.Props.c84_counterexample_long_line",
    "WG.Props.c84_counterexample_comment"
   ],
   "note": "settings relate the file to what parse_options leaves in the variables; what is done with them is C85 and later"
  },
  {
   "property": "C85",
   "status": "proved",
   "theorems": [
    "WG.Android.c85_excluded",
    "WG.Android.c85_included",
    "WG.Android.c85_all",
    "WG.Android.c85_both",
    "WG.Android.c85_counterexample_leak",
    "WG.Android.c85_counterexample_overflow",
    "WG.Android.c85_counterexample_empty",
    "WG.Android.c85_counterexample_last"
   ],
   "note": "memory contents behind the list of applications are a parameter; a Boolean-free specification of package lists and lists with commas"
  },
  {
   "property": "C86",
   "status": "proved",
   "theorems": [
    "WG.Android.c86_down",
    "WG.Android.c86_not_wg",
    "WG.Android.c86_counterexample_longer",
    "WG.Android.c86_counterexample_dot",
    "WG.Android.c86_counterexample_plus",
    "WG.Android.c86_counterexample_refused"
   ],
   "note": "names with characters special in regular expressions excluded (counterexamples show why); a network number is printed as at most 2^64 - 1"
  },
  {
   "property": "C87",
   "status": "proved",
   "theorems": [
    "WG.Android.c87_up",
    "WG.Android.c87_failed",
    "WG.Android.c87_ends",
    "WG.Android.c87_counterexample_endpoints",
    "WG.Android.c87_counterexample_signal",
    "WG.Android.c87_counterexample_long_line",
    "WG.Android.c87_counterexample_plus"
   ],
   "note": "names with characters special in regular expressions excluded for undoing (counterexample); printed MTUs below 2^31; the users are C85"
  },
  {
   "property": "C88",
   "status": "proved",
   "theorems": [
    "WG.Android.c88_up",
    "WG.Android.c88_down",
    "WG.Android.c88_address",
    "WG.Android.c88_resolver",
    "WG.Android.c88_counterexample_domain"
   ],
   "note": "search domains and the outputs of other programs assumed plain (counterexample for the domains)"
  },
  {
   "property": "C89",
   "status": "proved",
   "theorems": [
    "WG.Android.c89_nothing",
    "WG.Android.c89_zero",
    "WG.Android.c89_up",
    "WG.Android.c89_failed"
   ],
   "note": "lines of at most 65536 bytes; interface names without . and + in the failing case (see C86, C87)"
  },
  {
   "property": "C90",
   "status": "proved",
   "theorems": [
    "WG.Props.c90_keypair",
    "WG.Props.c90_same_as_wg",
    "WG.Props.c90_texts"
   ],
   "note": "keygen.html itself not modelled; getRandomValues is the parameter"
  },
  {
   "property": "C91",
   "status": "proved",
   "theorems": [
    "WG.Props.c91_json",
    "WG.Props.c91_counterexample_name",
    "WG.Props.c91_counterexample_failure"
   ],
   "note": "a quote in a name breaks it (c91_counterexample_name); a failure of wg is not noticed (c91_counterexample_failure)"
  },
  {
   "property": "C92",
   "status": "proved",
   "theorems": [
    "WG.Props.c92_updates",
    "WG.Props.c92_only_configured",
    "WG.Props.c92_listing",
    "WG.Props.c92_counterexample_case",
    "WG.Props.c92_counterexample_stop",
    "WG.Props.c92_counterexample_long",
    "WG.Props.c92_counterexample_header",
    "WG.Props.c92_bad_number"
   ],
   "note": "keys that are no base64 texts are regular expressions (a parameter; only c92_only_configured covers them)"
  },
  {
   "property": "C93",
   "status": "proved",
   "theorems": [
    "WG.Props.Punch.c93_answers",
    "WG.Props.Punch.c93_exact",
    "WG.Props.Punch.c93_ignores",
    "WG.Props.Punch.c93_only_sender",
    "WG.Props.Punch.c93_forgets",
    "WG.Props.Punch.c93_counterexample_zero",
    "WG.Props.Punch.c93_counterexample_spoof",
    "WG.Props.Punch.c93_counterexample_forgotten"
   ],
   "note": ""
  },
  {
   "property": "C94",
   "status": "proved",
   "theorems": [
    "WG.Props.PunchClient.c94_filter",
    "WG.Props.PunchClient.c94_asks",
    "WG.Props.PunchClient.c94_sets",
    "WG.Props.PunchClient.c94_complete",
    "WG.Props.PunchClient.c94_right",
    "WG.Props.PunchClient.c94_finishes",
    "WG.Props.PunchClient.c94_counterexample_repeated",
    "WG.Props.PunchClient.c94_counterexample_unknown",
    "WG.Props.PunchClient.c94_counterexample_many"
   ],
   "note": "b64_pton is a parameter"
  },
  {
   "property": "C95",
   "status": "proved",
   "theorems": [
    "WG.Props.Demo.c95_fair",
    "WG.Props.Demo.c95_client",
    "WG.Props.Demo.c95_refused",
    "WG.Props.Demo.c95_lowest",
    "WG.Props.Demo.c95_never_shared",
    "WG.Props.Demo.c95_counterexample_race",
    "WG.Props.Demo.c95_counterexample_garbage",
    "WG.Props.Demo.c95_counterexample_again",
    "WG.Props.Demo.c95_counterexample_newest"
   ],
   "note": ""
  },
  {
   "property": "C96",
   "status": "proved",
   "theorems": [
    "WG.Props.Handshakes.c96_probe",
    "WG.Props.Handshakes.c96_big",
    "WG.Props.Handshakes.c96_little",
    "WG.Props.Handshakes.c96_exact",
    "WG.Props.Handshakes.c96_other",
    "WG.Props.Handshakes.c96_counterexample_zero_byte"
   ],
   "note": ""
  },
  {
   "property": "C97",
   "status": "proved",
   "theorems": [
    "WG.Props.c97_set",
    "WG.Props.c97_keys",
    "WG.Props.c97_value",
    "WG.Props.c97_peer_value",
    "WG.Props.c97_accepted",
    "WG.Props.c97_complete",
    "WG.Props.c97_subcommands",
    "WG.Props.c97_show",
    "WG.Props.c97_interfaces",
    "WG.Props.c97_files",
    "WG.Props.c97_counterexample_value",
    "WG.Props.c97_counterexample_even",
    "WG.Props.c97_counterexample_expansion"
   ],
   "note": "values ending in the word peer, and values that begin or end with a character words are broken at, are excluded by Proper (see the counterexamples); compgen -W expansion is a parameter"
  },
  {
   "property": "C98",
   "status": "proved",
   "theorems": [
    "WG.Props.c98_keys",
    "WG.Props.c98_missing",
    "WG.Props.c98_open",
    "WG.Props.c98_counterexample_foreign",
    "WG.Props.c98_counterexample_short",
    "WG.Props.c98_counterexample_removed"
   ],
   "note": "the memory is constant while the program runs (c98_counterexample_removed shows what a change does); %pK must give true addresses"
  },
  {
   "property": "C99",
   "status": "proved",
   "theorems": [
    "WG.c99_reload",
    "WG.c99_undisturbed",
    "WG.c99_refused",
    "WG.c99_counterexample_empty",
    "WG.c99_retries"
   ],
   "note": "the file is there, can be read and its lines for wg-quick are right (c99_counterexample_empty shows what happens otherwise)"
  },
  {
   "property": "C100",
   "status": "proved",
   "theorems": [
    "WG.Props.c100_up",
    "WG.Props.c100_paths",
    "WG.Props.c100_accepted",
    "WG.Props.c100_down",
    "WG.Props.c100_operations",
    "WG.Props.c100_counterexample_operations",
    "WG.Props.c100_counterexample_here",
    "WG.Props.c100_counterexample_long",
    "WG.Props.c100_counterexample_expansion",
    "WG.Props.c100_counterexample_equals"
   ],
   "note": "file names without characters that mean something to the shell (c100_counterexample_expansion shows what happens otherwise)"
  },
  {
   "property": "C101",
   "status": "proved",
   "theorems": [
    "WG.c101_set",
    "WG.c101_servers",
    "WG.c101_inner",
    "WG.c101_unset",
    "WG.c101_nested",
    "WG.c101_failed",
    "WG.c101_counterexample_order",
    "WG.c101_counterexample_installed"
   ],
   "note": "without openresolv interfaces are taken down in the opposite order, and openresolv is not installed meanwhile (counterexamples otherwise); signals as in C50"
  },
  {
   "property": "C102",
   "status": "proved",
   "theorems": [
    "WG.c102_sticky4",
    "WG.c102_sticky6",
    "WG.c102_reply4",
    "WG.c102_reply6",
    "WG.c102_forgotten4",
    "WG.c102_forgotten6",
    "WG.c102_main4",
    "WG.c102_main6",
    "WG.c102_failed",
    "WG.c102_closed",
    "WG.c102_setup",
    "WG.c102_counterexample_family",
    "WG.c102_counterexample_control",
    "WG.c102_counterexample_length",
    "WG.c102_counterexample_scope"
   ],
   "note": "one family per endpoint; sockets made as magic_create_sock makes them (counterexamples otherwise); the kernel writes one whole control message; x86-64 layout"
  },
  {
   "property": "C103",
   "status": "proved",
   "theorems": [
    "WG.Props.DemoClient.c103_no_commands",
    "WG.Props.DemoClient.c103_one_peer",
    "WG.Props.DemoClient.c103_tunnel",
    "WG.Props.DemoClient.c103_sent",
    "WG.Props.DemoClient.c103_ends",
    "WG.Props.DemoClient.c103_counterexample_address",
    "WG.Props.DemoClient.c103_counterexample_empty"
   ],
   "note": "`set -e`; prompts of sudo and what a failed write leaves are not modelled"
  },
  {
   "property": "C104",
   "status": "proved",
   "theorems": [
    "WG.Props.DemoScript.c104_nothing",
    "WG.Props.DemoScript.c104_answered",
    "WG.Props.DemoScript.c104_order",
    "WG.Props.DemoScript.c104_one_peer",
    "WG.Props.DemoScript.c104_tunnel",
    "WG.Props.DemoScript.c104_counterexample_lost"
   ],
   "note": "the words of the route to the endpoint (lines 19-20) are a parameter"
  }
 ]
}