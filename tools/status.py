STATUS = {
 'C01': ('proved', 'exact characterisation of key_from_base64 for every byte string; GCC/Clang semantics of << on negative int (UB situation characterised by c01_ub_iff_invalid_char)'),
 'C02': ('proved', ''), 'C03': ('proved', ''), 'C04': ('proved', ''), 'C05': ('proved', ''),
 'C06': ('proved', 'for unsigned long wider than 32 bits; the 32-bit case is refuted by a counterexample, as the property says'),
 'C07': ('proved', ''), 'C08': ('proved', ''), 'C09': ('proved', ''), 'C10': ('proved', ''),
 'C11': ('proved', 'also proved: a read error in the middle of the file is taken for its end (counterexample)'),
 'C12': ('proved', ''), 'C13': ('proved', ''), 'C14': ('proved', ''), 'C15': ('proved', ''), 'C16': ('proved', ''), 'C17': ('proved', ''), 'C18': ('proved', ''),
 'C19': ('proved', 'assuming the interface does not change between the get and the set of syncconf; driver semantics as in Spec.Driver'),
 'C20': ('proved', 'for interfaces that report each peer once; a counterexample shows the hypothesis is needed'),
 'C21': ('proved', 'including the counterexample for unmentioned settings'), 'C22': ('proved', ''),
 'C23': ('proved', 'for every server whose readers read canonical texts correctly, while getnameinfo succeeds; the silent loss of an endpoint when it fails is a proved counterexample; the hypotheses are discharged for a model of glibc printing and parsing'),
 'C24': ('proved', ''), 'C25': ('proved', ''),
 'C26': ('proved', 'values within their documented ranges; a counter above 2^64-1 is read as 2^64-1 (counterexample)'),
 'C27': ('proved', 'range theorem and the counterexample to the stronger claim'),
 'C28': ('proved', 'userspace interfaces: exactly when show dereferences a null pointer, a concrete reply for which it does, and that showconf never does; assumes qsort sorts, printed host names without escapes, clock below 2^63'),
 'C29': ('proved', 'names of at most 15 bytes (longer ones are cut before, C47), prefix lengths in range, a buffer of 272 to 65535 bytes; little-endian host'),
 'C30': ('proved', 'as C29; ending requires that each message is answered'),
 'C31': ('proved', 'a continuation that is itself continued brings at least one allowed IP and peers are distinct; without the former the program dereferences a null pointer (counterexample); interrupted dumps are repeated; little-endian host'),
 'C32': ('proved', 'for datagrams of a multiple of four bytes, message length fields below 2^31 and interface names with a NUL; both last conditions are necessary (counterexamples)'),
 'C33': ('proved', 'pretty output, and which single-field listings and showconf print secrets'),
 'C34': ('proved', 'table, recoverability and agreement of listings with dump columns; column contents without tabs or line feeds is a hypothesis on name and endpoint texts, discharged for glibc printing'),
 'C35': ('proved', 'handshake times as reported by the kernel or userspace (nonnegative, below 2^63); differences of other times overflow in C'),
 'C36': ('proved', ''), 'C37': ('proved', ''),
 'C38': ('proved', 'while getnameinfo succeeds (counterexample otherwise) and addresses print and read back; discharged for glibc printing without flow labels and scopes'),
 'C48': ('proved', 'given that get reports a device or a negative code (C28 for the exception)'),
 'C39': ('proved', 'POSIX build; for every way the system hands out random bytes in pieces; failed writes to standard output not modelled'),
 'C40': ('proved', 'with the 64-bit curve code, which is proved equal to RFC 7748 (C41)'),
 'C41': ('proved', 'u64 as naturals modulo 2^64, u128 modulo 2^128; equality with RFC 7748 over the field Z/(2^255-19), whose modulus is proved prime'),
 'C43': ('proved', ''),
 'C42': ('proved', 'the straight-line field arithmetic is transliterated by tools/fiat32.py; everything reduced to 32 or 64 bits as in C'),
 'C44': ('proved', 'names below 2^61 bytes in total; realloc failures modelled, the failure of strdup for an empty list is not; kernel dump as in C53'),
 'C45': ('proved', ''),
 'C46': ('proved', 'whatever the system answers, also when it changes between the calls; truncation to 107 bytes is a proved counterexample'),
 'C47': ('proved', 'including the counterexample for longer names'),
 'C53': ('proved', 'well-formed dumps over any fragmentation; an error code in the final message is ignored and unterminated strings are read past the end (proved counterexamples)'),
 'C49': ('proved', 'for the configuration commands (set, setconf, addconf, syncconf) with every pattern of failing allocations; the failure of getline\'s own buffer, and lists built by ipc get, are not modelled with a heap'),
 'C51': ('proved', 'Linux script as bash 5 interprets it; the last theorem is for files without NUL bytes (c51_nul shows why)'),
 'C54': ('proved', 'pathname expansion of the words of Address and DNS is not modelled'),
 'C55': ('proved', 'including the counterexample of a bare file name'),
 'C50': ('proved', 'Linux script under an arbitrary environment; signals while a trap is running, and SIGKILL, are not modelled; exceptions are proved counterexamples'),
 'C52': ('proved', 'a written file is assumed to have arbitrary contents after a crash until sync returned, renaming is atomic, other programs and hooks do not touch the two files; directory entries are assumed durable after rename or absent'),
 'C56': ('proved', 'numbers printed by ip are taken as decimal; overflow of shell arithmetic (2^63) not modelled'),
 'C57': ('proved', 'for every sort function that puts longer prefixes first; c57_one_table assumes that wg shows the mark last set and that hooks do not change it'),
 'C58': ('proved', 'Linux script under an arbitrary environment'),
 'C59': ('proved', 'numeric addresses, showconf output with at least one setting; with bash 5.2 or later the kept settings must not contain & or a double backslash; the exceptions are proved counterexamples'),
 'C60': ('proved', 'rules as ip rule show prints them, ip rule delete removing the first rule with the given table (and suppress_prefixlength); exact removal needs suppress rules without selector; limits proved as counterexamples'),
 'C61': ('proved', 'nft -f applied as a whole or not at all; iptables-restore in order, possibly failing half-way; an inserted rule is listed with the same comment; nothing else changes the firewall meanwhile'),
 'C62': ('proved', 'composition of C11, C15, C19, C21, C23, C24, C26, C29, C31, C38 and C46; hypotheses of those on the system (buffer size, nonzero errnos, servers read canonical texts) collected in Spec.Sane; for sockets, endpoints that can be printed'),
 'C63': ('proved', 'buffers below 2^30 bytes; free() is taken to preserve errno; getting needs a name without NUL; setting needs C29 preconditions; the state of the errno after a failed close is not used'),
 'C64': ('proved', 'Linux script; a failing exec of sudo is not modelled; the content of the usage message is not modelled'),
 'C65': ('proved', '64-bit little endian layout; the kernel answers with the size of its answer and with the whole answer if it fits; calloc of the device and its parts is taken to succeed; exceptions are proved counterexamples'),
 'C66': ('proved', 'nvlist pack and unpack taken as lossless, names in a list unique (the library refuses duplicates); calloc in the get direction is taken to succeed; listing is the same text as on OpenBSD (c65_list); exceptions are proved counterexamples'),
 'C67': ('proved', 'asserts enabled; erasing of temporaries not modelled; right shift of negative numbers arithmetic, as in gcc and clang; the exception is a proved counterexample'),
 'C68': ('proved', 'little endian; the exceptions are proved counterexamples; releasing of the buffer of names is the caller\'s'),
 'C69': ('proved', 'little endian; the driver is any function of the buffer; the exceptions are proved counterexamples'),
 'C70': ('proved', 'devices show their properties as ShowsDev says; adapter names unique for the open theorem; the exceptions are proved counterexamples'),
 'C71': ('proved', 'streams in binary mode; BUFSIZ 512; content below 2^60 bytes'),
 'C72': ('proved', 'built without MOBILE_WGQUICK_SUBSET; 64-bit size_t; input of highlight at most 1048575 bytes'),
 'C73': ('proved', 'as C72; memory suffices'),
 'C74': ('proved', 'inet_pton as in glibc; decimal ports read as numbers by getaddrinfo; endpoints resolve; the exceptions are proved counterexamples'),
 'C75': ('proved', 'builtins and traps as in Model/BsdSh; a second signal during the trap not modelled; the exceptions are proved counterexamples'),
 'C76': ('proved', 'routes are identified by family and text of the destination; nobody else changes them; hosts that had a route of their own are no endpoints (counterexample proved); the same failures as hypotheses are shown to be needed by counterexamples'),
 'C77': ('proved', 'as C76; on FreeBSD the monitor can make its temporary directory; the exceptions are proved counterexamples'),
 'C78': ('proved', 'routes identified by family and text of the destination, as in C76; names with . or + excluded (proved counterexample)'),
 'C79': ('proved', 'numbers as bash prints and reads them in decimal'),
 'C80': ('proved', 'crash model as in C52; sync is taken to make the file durable, which sync(8) of the BSDs does for the whole system and only schedules'),
 'C81': ('proved', 'signals inside traps are not modelled (as in C75)'),
 'C82': ('proved', 'the system keeps the settings of the service as told and answers with one value per line or a sentence (KeepsSetting); values are words; nobody else changes them; the service stays in the list once seen (needed: counterexample); setting commands for it succeed'),
 'C83': ('proved', 'the file system and the output of launchctl do not change while the options are read; c83_up_configures joins the configuration given to wg setconf with C62'),
 'C84': ('proved', 'settings relate the file to what parse_options leaves in the variables; what is done with them is C85 and later'),
 'C85': ('proved', 'memory contents behind the list of applications are a parameter; a Boolean-free specification of package lists and lists with commas'),
 'C86': ('proved', 'names with characters special in regular expressions excluded (counterexamples show why); a network number is printed as at most 2^64 - 1'),
 'C87': ('proved', 'names with characters special in regular expressions excluded for undoing (counterexample); printed MTUs below 2^31; the users are C85'),
 'C88': ('proved', 'search domains and the outputs of other programs assumed plain (counterexample for the domains)'),
 'C89': ('proved', 'lines of at most 65536 bytes; interface names without . and + in the failing case (see C86, C87)'),
 'C90': ('proved', 'keygen.html itself not modelled; getRandomValues is the parameter'),
 'C91': ('proved', 'a quote in a name breaks it (c91_counterexample_name); a failure of wg is not noticed (c91_counterexample_failure)'),
 'C92': ('proved', 'keys that are no base64 texts are regular expressions (a parameter; only c92_only_configured covers them)'),
 'C93': ('proved', ''),
 'C94': ('proved', 'b64_pton is a parameter'),
 'C95': ('proved', ''),
 'C96': ('proved', ''),
 'C97': ('proved', 'values ending in the word peer, and values that begin or end with a character words are broken at, are excluded by Proper (see the counterexamples); compgen -W expansion is a parameter'),
 'C98': ('proved', 'the memory is constant while the program runs (c98_counterexample_removed shows what a change does); %pK must give true addresses'),
 'C99': ('proved', 'the file is there, can be read and its lines for wg-quick are right (c99_counterexample_empty shows what happens otherwise)'),
 'C100': ('proved', 'file names without characters that mean something to the shell (c100_counterexample_expansion shows what happens otherwise)'),
 'C101': ('proved', 'without openresolv interfaces are taken down in the opposite order, and openresolv is not installed meanwhile (counterexamples otherwise); signals as in C50'),
 'C102': ('proved', 'one family per endpoint; sockets made as magic_create_sock makes them (counterexamples otherwise); the kernel writes one whole control message; x86-64 layout'),
 'C103': ('proved', '`set -e`; prompts of sudo and what a failed write leaves are not modelled'),
 'C104': ('proved', 'the words of the route to the endpoint (lines 19-20) are a parameter'),
}
