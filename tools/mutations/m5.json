[
{
"definition": "swap5",
"file": "Verif/Model/Curve64.lean",
"old": "let r3 := swapStep a.l3 b.l3 swap1",
"new": "let r3 := swapStep a.l3 b.l3 0",
"claim": "C41 one limb never swapped"
},
{
"definition": "trim",
"file": "Verif/Model/Curve64.lean",
"old": "let mask0 := gteMask a.l0 0x7ffffffffffed",
"new": "let mask0 := gteMask a.l0 0x7ffffffffffee",
"claim": "C41 the value p itself is not reduced (wrong boundary)"
},
{
"definition": "fcontract",
"file": "Verif/Model/Curve64.lean",
"old": "store (trim (lowCarry (moduloCarryTop (carryPass (moduloCarryTop (carryPass a))))))",
"new": "store (trim (lowCarry (moduloCarryTop (carryPass a))))",
"claim": "C41 second carry pass dropped"
},
{
"definition": "fdifference",
"file": "Verif/Model/Curve64.lean",
"old": "0x3fffffffffff68",
"new": "0x3ffffffffffff8",
"claim": "C41 wrong multiple of p added"
},
{
"definition": "clamp",
"file": "Verif/Model/Curve64.lean",
"old": "(s[31] &&& 127) ||| 64",
"new": "(s[31] &&& 63)",
"claim": "C39 C41 the second highest bit not set"
},
{
"definition": "addAndDouble",
"file": "Verif/Model/Curve64.lean",
"old": "let zzz := fscalar zz 121665",
"new": "let zzz := fscalar zz 121666",
"claim": "C41 wrong curve constant"
},
{
"definition": "fexpand",
"file": "Verif/Model/Curve64.lean",
"old": "getLe64 b 24 >>> 12 &&& m51",
"new": "getLe64 b 24 >>> 12",
"claim": "C41 the top bit of the point is used"
},
{
"definition": "crecip",
"file": "Verif/Model/Curve64.lean",
"old": "let t0 := squareTimes c 99",
"new": "let t0 := squareTimes c 98",
"claim": "C41 wrong exponent"
},
{
"definition": "lowCarry",
"file": "Verif/Model/Curve64.lean",
"old": "l1 := w64 (o.l1 + o.l0 >>> 51)",
"new": "l1 := o.l1",
"claim": "C41 lost carry"
},
{
"definition": "subborrow25",
"file": "Verif/Model/Curve32.lean",
"old": "(x >>> 31, x &&& ((1 <<< 25) - 1))",
"new": "(x >>> 31, x &&& ((1 <<< 26) - 1))",
"claim": "C42 freeze with a wrong mask"
},
{
"definition": "freeze",
"file": "Verif/Model/Curve32.lean",
"old": "let s9 := subborrow25 s8.1 a.l9 0x1ffffff",
"new": "let s9 := subborrow25 0 a.l9 0x1ffffff",
"claim": "C42 lost borrow"
},
{
"definition": "storeNat",
"file": "Verif/Model/Curve32.lean",
"old": "| 12 => (h.l3 >>> 19) ||| w32 (h.l4 <<< 6)",
"new": "| 12 => (h.l3 >>> 19) ||| w32 (h.l4 <<< 5)",
"claim": "C42 wrong shift in byte 12"
},
{
"definition": "frombytes",
"file": "Verif/Model/Curve32.lean",
"old": "(a7 >>> 6) &&& ((1 <<< 25) - 1)",
"new": "a7 >>> 6",
"claim": "C42 top bit of the point used"
},
{
"definition": "turn",
"file": "Verif/Model/Curve32.lean",
"old": "let swap := s.swap ^^^ b",
"new": "let swap := b",
"claim": "C42 delayed swap forgotten"
},
{
"definition": "ladderStep",
"file": "Verif/Model/Curve32.lean",
"old": "let tmp0l := add tmp0 z3",
"new": "let tmp0l := add tmp1 z3",
"claim": "C42 121666 with the wrong square"
},
{
"definition": "carry",
"file": "Verif/Model/Curve32Gen.lean",
"old": "⟨x117, x120, (w32 (x119 + x93)), x96",
"new": "⟨x117, x120, x93, x96",
"claim": "C42 last carry dropped (rare)"
},
{
"definition": "fold",
"file": "Verif/Model/Curve32Gen.lean",
"old": "let x82 := (w64 (x81 + x51))",
"new": "let x82 := x81",
"claim": "C42 18 instead of 19"
},
{
"definition": "mulWide",
"file": "Verif/Model/Curve32Gen.lean",
"old": "let x58 := (w64 ((w32 (2 * x38)) * x20))",
"new": "let x58 := (w64 (x38 * x20))",
"claim": "C42 missing doubling"
},
{
"definition": "sub",
"file": "Verif/Model/Curve32Gen.lean",
"old": "(sub32 (w32 (134217690 + x5)) x23)",
"new": "(sub32 (w32 (67108845 + x5)) x23)",
"claim": "C42 p instead of 2p added to limb 0"
},
{
"definition": "curve25519",
"file": "Verif/Model/Curve32.lean",
"old": "let s := swapBoth s s.swap\n",
"new": "",
"claim": "C42 final swap dropped"
},
{
"definition": "getRandomBytes",
"file": "Verif/Model/Keys.lean",
"old": "if r.2 = len then some r.1 else none",
"new": "some r.1",
"claim": "C39 short read of urandom accepted"
},
{
"definition": "getRandomBytes",
"file": "Verif/Model/Keys.lean",
"old": "if d.map (·.length) = some len then some out",
"new": "if d.isSome then some out",
"claim": "C39 short getrandom accepted"
},
{
"definition": "genkeyMain",
"file": "Verif/Model/Keys.lean",
"old": "if argv.headD [] = b!\"genkey\" then C64.clamp (keyOf l) else keyOf l",
"new": "if argv.headD [] = b!\"genpsk\" then C64.clamp (keyOf l) else keyOf l",
"claim": "C39 genpsk clamped, genkey not"
},
{
"definition": "pubkeyMain",
"file": "Verif/Model/Keys.lean",
"old": "else if !trailingOk (stdin.drop 44) then",
"new": "else if false then",
"claim": "C40 trailing characters accepted"
},
{
"definition": "trailingOk",
"file": "Verif/Model/Keys.lean",
"old": "if c = 0 || charIsSpace (u8ToInt c) then trailingOk r else false",
"new": "if c = 0 || charIsSpace (u8ToInt c) then trailingOk r else r.isEmpty",
"claim": "C40 one trailing character accepted"
},
{
"definition": "genkeyMain",
"file": "Verif/Model/Keys.lean",
"old": "(m &&& 0o7 != 0)",
"new": "(m &&& 0o4 != 0)",
"claim": "C39 warning only when readable"
}
]