# Formal model of memar-go in Lean 4

## Approach

The Go code is read as text and modelled function by function as total, computable
Lean definitions under `lean/Verif/`. One sub-directory per Go package:

* `Verif/<Pkg>/Model.lean` – the code, every definition with file and lines it models;
* `Verif/<Pkg>/Spec.lean` (where needed) – a small independent specification;
* `Verif/<Pkg>/Lemmas.lean` (where needed) – helper lemmas;
* `Verif/<Pkg>/*Props.lean` – the property theorems, each with a non-vacuity example.

Conventions

* byte = `BitVec 8`, machine words = `BitVec n` (so Go's wrap-around is modelled);
* Go `string`/`[]byte` = `List (BitVec 8)`; aliasing is modelled only where it matters;
* run-time panic = `none` in `Option` (slice/array bounds, nil dereference, explicit `panic`);
* Go errors are values of a small inductive type;
* loops that may not terminate are modelled as step functions or with a number of rounds, and
  non-termination is a theorem about all iterates or all numbers of rounds;
* locks, goroutines and atomics are explicit steps of a state machine, and a schedule is an
  arbitrary list of steps.

Theorem names start with the property they belong to. If the code violates the property, the
refutation is a theorem with suffix `_violated` (where possible for all inputs of the failing
kind, not only one witness), the part that does hold is a theorem with suffix `_partial` or one
with narrower hypotheses, and the disagreement is listed in the section "Disagreements" below.
A property is `proved` in MANIFEST.json only if its whole statement is proved of the model.

## Trusted base

* **Lean 4.33.0's kernel.** No axiom is added, nothing is `sorry`ed, and neither `native_decide`
  nor `bv_decide` is used. `decide +kernel` is used for facts about finite tables (for example
  all 256 bytes): these are evaluated by the kernel.
* **Axioms.** Every theorem depends at most on `propext`, `Classical.choice` and `Quot.sound`.
  The exact set for each theorem of the manifest is in [AXIOMS.tsv](AXIOMS.tsv); 78 theorems depend on no axiom; 171 theorems depend on `propext`; 444 theorems depend on `propext`, `Quot.sound`; 778 theorems depend on `propext`, `Classical.choice`, `Quot.sound`.
* **The correspondence of the Lean definitions to the Go text**, by reading. Each definition
  cites the file and lines it models and states its simplifications.
* **The Go semantics** as summarised in the conventions above. In particular: the capacity of a
  slice is modelled only where the code depends on it; memory allocation succeeds; a data race is
  modelled only where the code uses atomics, locks or is documented for concurrent use.
* **Code that does not compile as it stands** (missing imports, undefined helpers, type errors)
  is modelled by its evident meaning; the definition's comment says so. Such places are:
  `convert.StringToUintNBase10` (not in the repository; a parameter of the JSON model),
  `utf8.CutByte` (assumed to be `strings.Cut` for one byte), arithmetic between different
  duration types in the TCP timers and the clocks (constants or amounts are parameters), and the
  import path prefixes `libgo` and `memar`, which are read as the same module.
* **Parameters.** What comes from outside the repository is a parameter of the model, and theorems
  hold for every value of it, or for every value that meets a hypothesis stated in the theorem:
  clock readings, random bytes, SHA3, base64, hexadecimal text and `strconv`, `strings.ToLower`,
  `net.ParseIP`, minifiers, compressors, the file system, registered handlers and callbacks,
  `FromString` of flags, the growth of a slice by `append`, and the order of iteration over a map.
  For base64 (standard and URL alphabets), `strconv.ParseInt` and `Atoi`, the reader of IPv4 addresses, and the layouts of dates, concrete models after the
  standard library are given as well, and theorems are proved about them (C293, C294, C295, C35 and C55, C292).

What is not modelled is listed, function by function, in the last section.

## Plan per property

| id | model | proof method |
|----|-------|--------------|
| C01 | shift/or byte codecs on lists, panic on short list | bridge shifts to base-256 digits on Nat, then arithmetic |
| C02 | both build variants | equality to byte reversal, counterexample |
| C03 | setters/getters at an index on top of C01 | splice lemmas on lists |
| C04 | descriptor + heap copy | splice lemmas, induction on payload |
| C05 | loop over the string table | induction over the list with frame condition |
| C06–C08 | the digit loop with its checks | induction on the string against a denotational decimal value |
| C09 | 64-bit wrap arithmetic | Nat division |
| C10–C12 | byte-wise escape/unescape automaton | induction; per-byte facts by full 256-case kernel table |
| C13–C14 | header lines as list | induction over histories; refutation for set/del |
| C15–C16 | decision functions | case analysis |
| C17 | filters | list induction |
| C18–C19 | 4-ary heap on lists, sift loops | multiset (List.Perm) and heap invariant by induction |
| C20 | 63-bit arithmetic | Int arithmetic |
| C21 | lock as explicit state | refutation trace, termination for the other states |
| C22 | status machine with atomic CAS steps | invariant over interleavings |
| C23–C24 | pool state machine | invariant over histories |
| C25 | buffer as list with offset | induction over histories |
| C26 | digit list sums mod 10 | arithmetic on sums |
| C27–C29 | integer arithmetic | omega |
| C30–C31 | byte arrays | C01 |
| C32–C34 | setters/getters on lists | C01 splice lemmas |
| C35 | ubtoa / dtoi loops | decimal lemmas of C06 |
| C36–C38 | frames and paths as lists, byte arithmetic as BitVec 8 | induction on hops |
| C39 | step function of the dispatch loop | measure argument; fixpoint for the loop forever case |
| C40–C42 | registries as state machines | invariants over histories vs. a log-based specification |
| C43 | counters | linear invariant over histories, permutation invariance |
| C44 | parser loop over argument list | induction against a grammar |
| C45 | splice loop | induction with offset invariant |
| C46, C50 | decision functions | bit extensionality / case analysis |
| C47 | encoder and decoder state | induction |
| C48 | stream state machine | refutation + partial |
| C49 | search and replace loop | induction over pieces |
| C51 | sign and digit loops on machine words | reduction to C06–C09 |
| C52 | pipeline as a function that returns the list of responses | case analysis over all branches |
| C53–C54 | splitting on index of a byte | list splitting lemmas, induction on the list of cookies |
| C55 | label loop with its counters | induction on the text against a grammar of labels |
| C56–C57 | last-index split; header look-up | induction on the list of codings |
| C58 | decimal parser of C06; the two-index loop | well-founded induction on the remaining text |
| C59 | 64-bit arithmetic of the re-arming rule | Int arithmetic |
| C60–C65 | queue of timers with cached wake time and counters, one function per Go function | invariants by induction over the loops, on top of C18/C19 |
| C66–C67 | status machine plus ticker counters | case analysis; induction on ticks |
| C68 | wheel as a list of slots | refutation for every period, exact position otherwise |
| C69–C71 | pool machine of C23 | invariants over schedules, refutations by schedules |
| C72 | capacity and length of the backing array | arithmetic on list lengths |
| C73 | load and store of the two words as separate steps | refuting schedule for all times |
| C74–C75 | Int division | floor lemmas |
| C76 | parser and writer loops | induction on groups |
| C77 | connection with its paths | invariant over histories |
| C78–C79 | registries as maps; error chains | induction over histories / chain |
| C80 | counters with atomic steps | invariant over schedules |
| C81 | byte layout | C01 |
| C82–C83 | command tree, argument writer | induction on trees and argument lists against an inductive relation |
| C84–C85 | path splitting, directory tree | induction on parts |
| C86–C87 | decoder with a number of rounds; codec with its cache | measure arguments; refutation for every number of rounds |
| C88–C89 | module graph, text splices | induction on the work list |
| C90 | option walk with a number of rounds | fixpoint argument; refutation for every number of rounds |
| C91–C93 | timers of a stream | induction over checks |
| C94–C95 | pool machine | case analysis, counting |
| C96–C100 | index state machine over the text | loop invariant, per form of URI |
| C101–C103 | map as association list with any iteration order | induction over settings |
| C104 | insertion into a sorted list, qualities as an abstract strict order | induction on the elements; filter by quality class for stability |
| C105 | attribute setters and getters, text form of C54 | decimal lemmas, C54 |
| C106 | status table of const.go, decimal parser, base-64 text of identifiers | finite table plus decimal lemmas; digit bound for identifiers |
| C107 | header lines after the handler | C14 rule of Header_Set |
| C108 | authority field of the URI | case analysis, C15 |
| C109 | loop over the list of stream states | induction on the states |
| C110 | decision over the two look-ups | case analysis |
| C111 | memory as a function, slices as (address, length, capacity) | index arithmetic over all element sizes |
| C112–C113 | file tree with pointers by number; Go's typed-nil interfaces | invariant over histories; induction on path parts |
| C114 | map visited in any order | permutation arguments |
| C115 | file objects with content and disk | case analysis; map lemmas |
| C116–C117 | socket with deadlines and the sequential timer | Int arithmetic, refutation for all clocks |
| C118 | loop with a number of rounds; list of states | induction |
| C119 | queue with pointers | invariant over histories |
| C120 | status machine with listeners as bounded channels | invariant over histories |
| C121 | status word with an unbuffered channel | induction over histories against a small specification |
| C122 | seconds and nanoseconds as integers | division lemmas; counterexample families |
| C123 | 8 bit word, language | kernel decision over the full 8 bit domain |
| C124 | generator over syntax trees, lines of code with their meaning | induction over fields, each line by the codec lemmas |
| C125 | field filter and type switch | case analysis over all types; list lemmas |
| C126 | loop over declarations | invariant over the methods |
| C127 | recursive generation with fuel, generated bodies run on bytes | induction on fuel; evaluation for all values |
| C128 | slice moves with stale bytes as a parameter | invariant over the list of places |
| C129 | compressor state over a world of sources, compress/gzip and compress/flate of the standard library as a parameter | invariant over the calls |
| C130 | decompressor state, library as a parameter | invariant over the calls |
| C131 | conversion functions over framework and other Go errors | case analysis for all errors |
| C132 | decoder over lists of bytes | induction over the characters |
| C133 | directories as maps from names to contents, all steps of update; minifier, checksum and locale decoder as parameters | frame lemmas and induction over languages, sheets and reloads |
| C134 | the loop over encodings on a directory | induction over the encodings |
| C135 | declarations as trees, the standard parser as a parameter, type lookup with fuel | induction over fuel, declarations and accessibility of types |
| C136 | table from connections to streams, both receivers, histories of packets | case analysis and induction over histories |
| C137 | values by what the type switch sees, logger with mutex, listeners that may panic | case analysis and induction over listeners and histories |
| C138 | network of switches with ports, recursion with fuel | induction over the route and over fuel |
| C139 | documented layouts as specification, accessors over bytes | round trip lemmas for digits, arithmetic |
| C140 | message with all parts, histories of calls with resets | invariant over histories against the calls since the last reset |
| C141 | stream with timers and counts of taken down halves, histories of events | invariant over histories that the timer is never set up |
| C142 | codec with source, reader and writer as parameters; decoders over bytes with the base64 and number parsers as parameters | case analysis, position lemmas of the decoders |
| C143 | the queue model of C61-C66 with moving, emptying and the heap check | reachability invariant, induction over the heap |
| C144 | one signalling timer over the queue model, its channel as two flags | induction over histories with the count of firings |
| C145 | the regular expression as a recursion over the text, codecs and minifiers as parameters | an inductive specification, proved equivalent by induction over the length |
| C146 | visiting with a state of the caller, nil interfaces as panics, filepath.Rel as a parameter | induction over the flags and paths, C44 for the reading |
| C147 | the loop of Start with the scheduler's lateness and the calls made during a sleep as parameters, Sleep, and the answer of checkTimers (Verif/Timer/Driver.lean on top of Timing.lean) | case analysis of every way runTimer ends; invariants modifiedEarliest = 0 and no deleted entry over programs; the queue of one periodic timer computed for every lateness; induction over the specification's histories for Sleep |
| C148 | MakeNewPage and MakeSplashFiles with their templates as lists of texts and fields (Verif/Gui/Model.lean); strings.Title for ASCII | an independent reading of the script (JavaScript names, the first const line, strings in double quotes) and structural facts about the templates |
| C149 | Start, Stop and the wheel's goroutine as a state machine with the stop channel, the ticker's signal and the position of the goroutine (Verif/Timer/WheelStop.lean) | invariants by induction over schedules |
| C150 | the constructors and the in-place functions of the three ciphers and the keys of an application (Verif/Crypto/Model.lean) | definitions of hiding, authenticating and depending on a key that other ciphers meet; the code refuted for every block cipher |
| C151 | writing, reading and random making of the three identifiers, V1, V5 and Equal (Verif/Identifier/Text.lean) with base64 and the random source as parameters | injectivity from the codec's round trip, list lemmas |
| C152 | the registry of pages with its nil map and the navigator (Verif/Gui/Pages.lean) | induction over registrations |
| C153 | Less and the call of sort.Sort with its promise as a hypothesis, met by merge sort (Verif/Os/Sort.lean) | pairwise relations of a permutation |
| C154 | Set, Check and the constants as 64-bit vectors (Verif/Operation/Action.lean) | bit extensionality; induction over a mix of named actions |
| C155 | the constants and conversions as truncating 64-bit division (Verif/Time/Whole.lean) | integer arithmetic for both signs |
| C156 | user information, WriteTo, Encode and Decode (Verif/Uri/User.lean) on top of Verif/Uri/Model.lean | an inductive history of calls; the cut at the first colon determines both parts |
| C157 | errors with optional methods and wrapped errors (Verif/ErrorKind.lean) | case analysis |
| C158 | Process with the table as a parameter, Init, WriteFrame, Send and ReSend (Verif/Net/GpProcess.lean) | computation for every frame; induction over initializations |
| C159 | typed readers and writers of header lines over the header model, the two time layouts as parameters (Verif/Http/Typed.lean) | first value of a name after adding a line; case analysis on the layouts |
| C160 | the lookups over the registries of Verif/Registry/Model.lean (Verif/Registry/Lookup.lean) | the last registered type by induction over the history |
| C161 | IEEE 754 bit patterns of any format with their values, the general readers (Verif/Math/Objects.lean) | the value determines sign, exponent and mantissa; decimal notation of C06 and C08 |
| C162 | 32-bit numbers, slices of numbers as base64 with the byte order as a parameter, runtime coding, the length of a codec (Verif/Json/More.lean) | decimal notation, groups of bytes, induction over calls |
| C163 | localising for a list of languages in any order, the scripts of all languages, rounds of reloading (Verif/Www/Languages.lean) | permutations, refinement to the script of one language, induction over rounds |
| C164 | the objects the compress types answer, refused calls, a decompressor over a compressor (Verif/Compress/Types.lean) | induction over histories of calls with a changing source |
| C165 | start-up of the queues of all cores, calls and rounds tagged with a core (Verif/Timer/Cores.lean) | refinement to the queue of one core (C11), induction over histories |
| C166 | units, epoch and clock of UTC times (Verif/Time/Clock.lean) | division of 64-bit words against whole numbers |
| C167 | atomic operations tagged with a thread (Verif/Time/Clock.lean) | induction over interleavings |
| C168 | texts of the four kinds of times (Verif/Time/Clock.lean) | all times have one text, so no reader inverts it |
| C169 | rename, copy, move, wipe, listing of directories and hidden names over the heap of C112 (Verif/Os/Moves.lean) | look-up before and after, the calls made of the operating system |
| C170 | registration and shutdown of network multiplexers (Verif/Os/Moves.lean) | induction over histories |
| C171 | readers of the values of TCP options and the streams that receive them (Verif/Tcp/Options.lean) | big-endian value of the bytes read; induction over received segments |
| C172 | settings of keep alive, ports and the sending side (Verif/Tcp/Options.lean) | induction over histories of settings |
| C173 | Encode and Decode of all codecs calling each other with fuel, through bodies of any depth (Verif/Codec) | the calls through bodies reduce to the codecs inside; the mutual calls of two codecs by induction on the fuel |
| C174 | the accessors of the routing extension header against the layout of RFC 8200 (Verif/Net/Extension.lean) | fields by computation; next frame by comparing lengths, with the sum in a byte |
| C175 | the constructors of tickers on the queue of Verif/Timer/Timing (Verif/Timer/Ticks.lean) | the specification of tick on reachable queues |
| C176 | Init, FromString and ToString of media types (Verif/Registry/MediaType.lean) | C78_parse and C30_generated |
| C177 | split from C03, about the same model: syllab booleans, floating point numbers, complex numbers and fixed arrays round-trip | as for C03; the part the code violates is refuted, the rest is proved as _partial |
| C178 | split from C04, about the same model: the Syllab encoder does not truncate contents | as for C04; the part the code violates is refuted, the rest is proved as _partial |
| C179 | split from C09, about the same model: per-N calculations for large products and large N | as for C09; the part the code violates is refuted, the rest is proved as _partial |
| C180 | split from C13, about the same model: empty header values and empty names | as for C13; the part the code violates is refuted, the rest is proved as _partial |
| C181 | split from C16, about the same model: a malformed service identifier is refused | as for C16; the part the code violates is refuted, the rest is proved as _partial |
| C182 | split from C17, about the same model: sanitised cookies contain only legal bytes | as for C17; the part the code violates is refuted, the rest is proved as _partial |
| C183 | split from C23, about the same model: an item the pool has cleaned up is never handed out | as for C23; the part the code violates is refuted, the rest is proved as _partial |
| C184 | split from C25, about the same model: reading from a flat buffer returns the unread content | as for C25; the part the code violates is refuted, the rest is proved as _partial |
| C185 | split from C26, about the same model: the Luhn generator completes every payload | as for C26; the part the code violates is refuted, the rest is proved as _partial |
| C186 | split from C28, about the same model: adding a duration to a wall-clock time | as for C28; the part the code violates is refuted, the rest is proved as _partial |
| C187 | split from C29, about the same model: hour of the day, and weekday before the epoch | as for C29; the part the code violates is refuted, the rest is proved as _partial |
| C188 | split from C30, about the same model: short identifiers, order of identifiers and failures of the random source | as for C30; the part the code violates is refuted, the rest is proved as _partial |
| C189 | split from C32, about the same model: tCP data offset and first flag byte can be set | as for C32; the part the code violates is refuted, the rest is proved as _partial |
| C190 | split from C33, about the same model: options and payload of a checked TCP segment | as for C33; the part the code violates is refuted, the rest is proved as _partial |
| C191 | split from C34, about the same model: header fields that share a byte, and lengths announced in headers | as for C34; the part the code violates is refuted, the rest is proved as _partial |
| C192 | split from C37, about the same model: chapar frames that pass the check are safe, and broadcast frames can be made | as for C37; the part the code violates is refuted, the rest is proved as _partial |
| C193 | split from C41, about the same model: an error with identifier zero is refused | as for C41; the part the code violates is refuted, the rest is proved as _partial |
| C194 | split from C42, about the same model: service registry: duplicates are reported, the two indexes agree, the list is complete | as for C42; the part the code violates is refuted, the rest is proved as _partial |
| C195 | split from C44, about the same model: every value can be given to every flag on the command line | as for C44; the part the code violates is refuted, the rest is proved as _partial |
| C196 | split from C47, about the same model: jSON: negative numbers, quotes, empty lists and unknown members | as for C47; the part the code violates is refuted, the rest is proved as _partial |
| C197 | split from C49, about the same model: localised HTML pages | as for C49; the part the code violates is refuted, the rest is proved as _partial |
| C198 | split from C51, about the same model: parsing the text of a signed integer | as for C51; the part the code violates is refuted, the rest is proved as _partial |
| C199 | split from C58, about the same model: content-Type headers | as for C58; the part the code violates is refuted, the rest is proved as _partial |
| C200 | split from C66, about the same model: a Tick that returns an error changes nothing | as for C66; the part the code violates is refuted, the rest is proved as _partial |
| C201 | split from C71, about the same model: a pool with an idle item serves a request | as for C71; the part the code violates is refuted, the rest is proved as _partial |
| C202 | split from C72, about the same model: extending the length of a buffer | as for C72; the part the code violates is refuted, the rest is proved as _partial |
| C203 | split from C76, about the same model: writing IPv6 addresses, '::' and bad texts | as for C76; the part the code violates is refuted, the rest is proved as _partial |
| C204 | split from C77, about the same model: chapar connections use the right path | as for C77; the part the code violates is refuted, the rest is proved as _partial |
| C205 | split from C83, about the same model: a command called without words shows its help | as for C83; the part the code violates is refuted, the rest is proved as _partial |
| C206 | split from C84, about the same model: file names: name without extension, kinds of paths and path parts | as for C84; the part the code violates is refuted, the rest is proved as _partial |
| C207 | split from C85, about the same model: bare names and paths above the root | as for C85; the part the code violates is refuted, the rest is proved as _partial |
| C208 | split from C88, about the same model: a combined script holds each module after the modules it imports | as for C88; the part the code violates is refuted, the rest is proved as _partial |
| C209 | split from C89, about the same model: pages reach the scripts of an application | as for C89; the part the code violates is refuted, the rest is proved as _partial |
| C210 | split from C92, about the same model: tCP keep-alive: number of probes and time between them | as for C92; the part the code violates is refuted, the rest is proved as _partial |
| C211 | split from C94, about the same model: a refused start or close leaves a pool as it was | as for C94; the part the code violates is refuted, the rest is proved as _partial |
| C212 | split from C97, about the same model: reading a URI never panics | as for C97; the part the code violates is refuted, the rest is proved as _partial |
| C213 | split from C102, about the same model: colons, semicolons and the first error of a query | as for C102; the part the code violates is refuted, the rest is proved as _partial |
| C214 | split from C103, about the same model: a query that was never initialised can be changed | as for C103; the part the code violates is refuted, the rest is proved as _partial |
| C215 | split from C105, about the same model: an age of zero of a Set-Cookie value | as for C105; the part the code violates is refuted, the rest is proved as _partial |
| C216 | split from C106, about the same model: errors of a response, and redirecting twice | as for C106; the part the code violates is refuted, the rest is proved as _partial |
| C217 | split from C107, about the same model: the length of a response is announced exactly once | as for C107; the part the code violates is refuted, the rest is proved as _partial |
| C218 | split from C111, about the same model: strings made from or converted to bytes do not change | as for C111; the part the code violates is refuted, the rest is proved as _partial |
| C219 | split from C114, about the same model: listings page by page | as for C114; the part the code violates is refuted, the rest is proved as _partial |
| C220 | split from C115, about the same model: appending to files, saving and deleting them | as for C115; the part the code violates is refuted, the rest is proved as _partial |
| C221 | split from C118, about the same model: time limits of waiting, sending and closing of sockets | as for C118; the part the code violates is refuted, the rest is proved as _partial |
| C222 | split from C120, about the same model: starting and stopping an application | as for C120; the part the code violates is refuted, the rest is proved as _partial |
| C223 | split from C121, about the same model: every status change of a stream reaches a watcher | as for C121; the part the code violates is refuted, the rest is proved as _partial |
| C224 | split from C122, about the same model: elapsed periods given in nanoseconds, and time since | as for C122; the part the code violates is refuted, the rest is proved as _partial |
| C225 | split from C123, about the same model: names of sets of days | as for C123; the part the code violates is refuted, the rest is proved as _partial |
| C226 | split from C125, about the same model: fields of unsupported types are refused | as for C125; the part the code violates is refuted, the rest is proved as _partial |
| C227 | split from C134, about the same model: unknown encodings of compressed forms are reported | as for C134; the part the code violates is refuted, the rest is proved as _partial |
| C228 | split from C135, about the same model: reading a Go package: test files, recursive types and all functions | as for C135; the part the code violates is refuted, the rest is proved as _partial |
| C229 | split from C139, about the same model: fields of open stream, data and signature frames | as for C139; the part the code violates is refuted, the rest is proved as _partial |
| C230 | split from C140, about the same model: what a reused HTTP message writes | as for C140; the part the code violates is refuted, the rest is proved as _partial |
| C231 | split from C142, about the same model: jSON over readers and writers: counts, errors, lengths and signs | as for C142; the part the code violates is refuted, the rest is proved as _partial |
| C232 | split from C143, about the same model: moving timers to another core and emptying a timer queue | as for C143; the part the code violates is refuted, the rest is proved as _partial |
| C233 | split from C144, about the same model: taking signalling timers down and setting timers up again | as for C144; the part the code violates is refuted, the rest is proved as _partial |
| C234 | split from C145, about the same model: minification keeps the words of a text and reports errors | as for C145; the part the code violates is refuted, the rest is proved as _partial |
| C235 | split from C146, about the same model: the number of set flags and the root command | as for C146; the part the code violates is refuted, the rest is proved as _partial |
| C236 | split from C147, about the same model: the time until the next timer, and the loop that runs the timers | as for C147; the part the code violates is refuted, the rest is proved as _partial |
| C237 | split from C149, about the same model: stopping a busy, a new or a stopped timing wheel | as for C149; the part the code violates is refuted, the rest is proved as _partial |
| C238 | split from C151, about the same model: reading identifiers from text, and identifiers made from names and times | as for C151; the part the code violates is refuted, the rest is proved as _partial |
| C239 | split from C155, about the same model: whole minutes, hours, days and weeks of a duration in nanoseconds | as for C155; the part the code violates is refuted, the rest is proved as _partial |
| C240 | split from C156, about the same model: setting parts of user information, and reading an URI from a codec | as for C156; the part the code violates is refuted, the rest is proved as _partial |
| C241 | split from C159, about the same model: bad or repeated typed header lines are refused | as for C159; the part the code violates is refuted, the rest is proved as _partial |
| C242 | split from C160, about the same model: lookups of media types, and the list of encodings | as for C160; the part the code violates is refuted, the rest is proved as _partial |
| C243 | split from C161, about the same model: equality across sizes and of NaN, and damaged texts of numbers | as for C161; the part the code violates is refuted, the rest is proved as _partial |
| C244 | split from C162, about the same model: jSON of numbers between processors, of values that are no numbers, and the length of a codec | as for C162; the part the code violates is refuted, the rest is proved as _partial |
| C245 | split from C163, about the same model: missing texts of a language, and the end of the reload input | as for C163; the part the code violates is refuted, the rest is proved as _partial |
| C246 | split from C164, about the same model: gzip decompressors refuse other contents and report failing sources | as for C164; the part the code violates is refuted, the rest is proved as _partial |
| C247 | split from C166, about the same model: the documented epoch, the calendar year and the local time | as for C166; the part the code violates is refuted, the rest is proved as _partial |
| C248 | split from C167, about the same model: updating the atomic clock by a read and a store | as for C167; the part the code violates is refuted, the rest is proved as _partial |
| C249 | split from C53, about the same model: cookies with empty values, cookie headers and adding cookies | as for C53; the part the code violates is refuted, the rest is proved as _partial |
| C250 | split from C172, about the same model: the keep alive of a stream and closing its sending side | as for C172; the part the code violates is refuted, the rest is proved as _partial |
| C251 | split from C10, about the same model: escaped hosts and zone identifiers can be unescaped | as for C10; the part the code violates is refuted, the rest is proved as _partial |
| C252 | split from C15, about the same model: a configured domain that starts with a digit | as for C15; the part the code violates is refuted, the rest is proved as _partial |
| C253 | split from C27, about the same model: seconds that do not fit a nanosecond duration | as for C27; the part the code violates is refuted, the rest is proved as _partial |
| C254 | split from C31, about the same model: parsing RFC 4122 identifiers | as for C31; the part the code violates is refuted, the rest is proved as _partial |
| C255 | split from C35, about the same model: texts that are no IPv4 addresses are refused | as for C35; the part the code violates is refuted, the rest is proved as _partial |
| C256 | split from C40, about the same model: a listener that uses its own event target | as for C40; the part the code violates is refuted, the rest is proved as _partial |
| C257 | split from C57, about the same model: the legacy Pragma header beside an empty Cache-Control line | as for C57; the part the code violates is refuted, the rest is proved as _partial |
| C258 | split from C128, about the same model: replacing places given in another order or outside of the file | as for C128; the part the code violates is refuted, the rest is proved as _partial |
| C259 | split from C104, about the same model: accept header is read in order of preference | as for C104; the part the code violates is refuted, the rest is proved as _partial |
| C260 | split from C108, about the same model: the Host line is treated as the authority of the target | as for C108; the part the code violates is refuted, the rest is proved as _partial |
| C261 | split from C109, about the same model: sending a request returns a response or an error and closes the stream | as for C109; the part the code violates is refuted, the rest is proved as _partial |
| C262 | split from C113, about the same model: paths lead to the right file | as for C113; the part the code violates is refuted, the rest is proved as _partial |
| C263 | split from C116, about the same model: changing the time limits of a socket | as for C116; the part the code violates is refuted, the rest is proved as _partial |
| C264 | split from C126, about the same model: methods get the code of their own type | as for C126; the part the code violates is refuted, the rest is proved as _partial |
| C265 | split from C130, about the same model: decompressing a codec | as for C130; the part the code violates is refuted, the rest is proved as _partial |
| C266 | split from C137, about the same model: logging and recovery from panics | as for C137; the part the code violates is refuted, the rest is proved as _partial |
| C267 | split from C138, about the same model: frames through a network of switches | as for C138; the part the code violates is refuted, the rest is proved as _partial |
| C268 | split from C141, about the same model: closing and reusing TCP streams | as for C141; the part the code violates is refuted, the rest is proved as _partial |
| C269 | split from C148, about the same model: a new page is a program for the page that was asked for | as for C148; the part the code violates is refuted, the rest is proved as _partial |
| C270 | split from C158, about the same model: a GP frame reaches the connection of its peer | as for C158; the part the code violates is refuted, the rest is proved as _partial |
| C271 | split from C136, about the same model: tCP segments that arrive over IP reach their stream | as for C136; the part the code violates is refuted, the rest is proved as _partial |
| C272 | split from C48, about the same model: tCP stream: in-order bytes are delivered in order | as for C48; the part the code violates is refuted, the rest is proved as _partial |
| C273 | `dirInit`, `fillMaps` and `start` of the operating-system model (Tight/Listing) | membership and distinctness of names through `fillMaps` by induction over the entries; every history keeps the maps |
| C274 | split from C21, about the same model: adding a timer never blocks on itself | as for C21; the part the code violates is refuted, the rest is proved as _partial |
| C275 | split from C39, about the same model: the frames of a packet are processed in order, to the end | as for C39; the part the code violates is refuted, the rest is proved as _partial |
| C276 | split from C67, about the same model: a limited ticker fires exactly the number of times asked for | as for C67; the part the code violates is refuted, the rest is proved as _partial |
| C277 | split from C73, about the same model: atomic wall clock is atomic | as for C73; the part the code violates is refuted, the rest is proved as _partial |
| C278 | split from C86, about the same model: the JSON decoder returns on every text | as for C86; the part the code violates is refuted, the rest is proved as _partial |
| C279 | split from C199, about the same model: content-Type headers without, with short and with two parameters | as for C199; the part the code violates is refuted, the rest is proved as _partial |
| C280 | `Path` as an array of 255 bytes and a byte of length, with `Set`, `Get`, `Unmarshal`, `MarshalTo` and `Init` | lemmas about `copy` into a slice and the byte sum of the header and the hop count; composed into the round trip through a frame |
| C281 | the same functions | length modulo 256, the short frame and the wrapped end of the path computed for all lengths |
| C282 | `init` and `Rename` of a file, with the media type kept as the extension it was looked up by | the split of a path and of a name (C84) against an inductive specification of extensions |
| C283 | which handler `Init` and `Reinit` of a limited ticker register, and firing with it | induction over the firings |
| C284 | the flat buffer on a memory of addressed bytes, slices as address, length and capacity; Go's append writes into the room behind the slice or moves | invariant over the calls that only add; refinement to the byte model of the buffer; reset and shared room computed for all memories |
| C285 | the data of many files as slices of one memory, with unmarshal, marshal, append, prepend and replace | refinement to a map from file to bytes by induction over the history, for slices that are apart; the shared cases computed for all memories |
| C286 | the decoders of JSON keys and strings, the file address and the whole URI parser with texts as addresses in the memory | refinement of the located decoders to the byte models; reading the same address after the buffer was written again |
| C287 | the getters with a length field on a slice of the memory with a capacity of its own, where Go bounds a slice expression by the capacity | the bounds read from the fields compared with length and capacity; for every content behind the message the answer computed |
| C288 | the socket timing with moments and durations as 64-bit words that wrap, and the timer's cut to the last moment | refinement to the socket with times without bounds, by induction over the calls; the wrapped case computed for all clocks |
| C289 | the last hop of a frame with the table of connections as a parameter with a law, and a list as reference table | induction over the frames a switch receives; the path stored for a connection compared in length with the path looked up |
| C290 | the calls of the four registries as single accesses to their maps and slices, run by any number of goroutines in any order, with the runtime's mark on a map that is being written | an invariant over every schedule for lookups; calls that do not overlap reduced to the sequential histories; for overlapping calls a schedule to the crash, the duplicate or the lost entry given for every state |
| C291 | a tick that reads its timers from the array the emptied slot still writes to, with callbacks that add timers as a function of all that ran, callbacks in callbacks by depth | an invariant over the loop that no timer is added to the slot being run; equality with the wheel of C68 when callbacks add nothing; for the violations the tick computed for all such wheels, and induction over the depth |
| C292 | writing and reading of the three layouts of dates, after the standard library, with the weekday and the offset of a zone as parameters | the reader followed part by part over the written text; years of five digits or with a sign stop it; for every text, what passes the checks of the reader is a date |
| C293 | the encoder and the decoder of base64 for URLs of the standard library, character by character, and the multiplexer over it | the decoder is followed over the groups of four characters; the bits of the bytes are compared with the bits of the characters; the first bad character decides what was written before it |
| C294 | `strconv.ParseInt` after the standard library, and the two decoders over it | the parser is shown to accept exactly a sign and digits of the value; the decoders are then followed to the next end token |
| C295 | the encoder and the decoder of standard base64 after the standard library, and the list decoder with the array all items share | the alphabet is translated to that of C293, whose theorems are carried over; the list by induction over its items |
| C296 | taking ports away, beside the network of switches of C138 | the network's theorems are applied to the switch after the port was taken away, for every frame |
| C297 | the text forms of paths and addresses, with their empty readers | for all values and prior contents |
| C298 | UnmarshalFrom of the JSON codec and of sockets, the copying operations of buffers and of sockets of the standard library | a specification of the account of bytes, refuted for all non-empty data; for request targets from C97 |
| C299 | timing-wheel.go Start and Stop step by step, with any number of goroutines and calls | an invariant that ties the number of calls told and the state of the channel to the place of the goroutine |
| C300 | the same model with several goroutines | an invariant of all schedules after the channel was closed; for the partial one an invariant of all schedules |
| C301 | event/target.go once more, with the two places that can panic under the mutex: calling a listener and comparing two of them (Go's == on interface values); goroutines that recover go on | simulation by the model of C40 until the first panic; from then on an invariant over every schedule: the mutex is held and nobody is inside a call |
| C302 | pool/lifo.go as calls one after the other, with constructors and clean-up functions that panic or ask the pool for its length | induction over histories; exact outcome of the loop in Close; invariant of a pool whose mutex is never released |
| C303 | pool/lifo.go in the interleaving model of C23, with the rounds of the cleaner counted | induction over schedules: each round moves an item one place on (list, victims, taken away), nothing but handing out and cleaning up takes it away; the ownership invariant of C23 for the lower bound |
| C304 | time/utc/weekday.go, time/utc/dayhour.go and time/earth/dayhour.go: constants, All, None and Check on bit vectors | bit by bit: a joined list has exactly the bits of its members, for any list |
| C305 | net/uri/urn.go: all methods | induction over the calls of Init |
| C306 | the calls on an event target with their options, and the Event structure | a refinement of the documented target by induction over histories; for each option that is ignored a history given for every state |
| C307 | the timer methods on the queue of C61, with their answers | an invariant that a timer was stopped exactly when the last call answered without error was Stop, through every loop of the scheduler's check; counterexamples for every armed timer |
| C308 | the table of all error variables with the texts given to Init, the value each becomes, and the registry after any of them are initialised in any order (Registry/Declared.lean) | the texts are compared through a number for each of them computed by the kernel; an invariant of the two maps of the registry by induction over the registrations |
| C309 | Receive of a TCP stream with an Append that may refuse, as a parameter (Tcp/Refused.lean) | what Receive does with the expected segment outright, and induction over the segments |
| C310 | Header_Find with any int as the start, index panics included | the loop is followed by induction; answers are compared with a specification of the first line with a name |
| C311 | setting no content, and histories of calls on one file | induction over the history against the content and the writes it says; the readers of a file that is reset evaluated for every content |
| C312 | the web handler with the directory and files of os/default and the response then sent, interfaces around nil pointers included | the theorems on the sent response, on files and on the directories of reachable states are composed |
| C313 | reading targets into a request again and again, the host check and the dispatch | an invariant of the parser by induction over the text and over the history; composed with the theorems on URIs and on the host check |
| C314 | the web handler over directories and files, and making directories by name | reachability in the tree by induction over the parts of the path; two systems compared; places that paths name in a separate specification |
| C315 | the Location line of the host check, read as a new target | composition of the host check, reading URIs and splitting authorities |
| C316 | checking, writing and reading Set-Cookie, and walking the Cookie line sent back | composition of the theorems on each; the reader is shown not to look at the byte after a semicolon |
| C317 | escaping of segments and query values, writing and reading the URI that has them | composition of the round trips of each, with the escaped texts shown free of the delimiters of the URI; the refutation by the first colon of the text |
|  |

Two tests on the theorems run all the time: hand-written wrong programs, and a sweep that changes
one token of a model definition at a time (a comparison, a constant, an operator, an index) and
rebuilds every module above it. Both are logged in `seeded/LOG.jsonl`.

## Disagreements

Where the code does not do what the property says. Each line is a theorem about the model.

**C02 The wire format does not depend on the CPU the program was compiled for**

* `C02_started_program_violated`: the bytes it writes for a value depend on the CPU. `BigEndian` writes the most significant byte first on the one kind and last on the other, `LittleEndian` the other way round; no choice of files helps, because the other files do not start.
* `C02_portable_violated`: the bytes written for a value differ between the two builds.
* `C02_portable_widths_violated`: on a buffer that is long enough the two builds write the same bytes exactly for the values whose bytes read the same from both ends, and read the same value exactly from bytes that do.

**C07 Base-10 parsing of 64-bit unsigned integers never silently wraps**

* `C07_u64_violated`: 2^64 is accepted and stored as 0.
* `C07_u64_product_violated`: The product check is incomplete too: 92000000000000000000 is accepted with a wrapped value.
* `C07_u64_just_above_violated`: **C07** violated for all four numbers directly above the range: they are taken, as the numbers from zero to three.
* `C07_parse_print_u64_violated`: whenever a number above the range is taken, the printed text is another one; four numbers are.

**C14 HTTP header replacement and deletion**

* `C14_set_does_not_replace_violated`: for every header, name and two different values, setting the first and then the second leaves the reader with the first.
* `C14_del_does_not_delete_violated`: for every header, deleting a name that has a value leaves the value readable.

**C24 Object pool respects its item limit**

* `C24_limit_violated`: for every limit of at least four there is a schedule, with nothing but one user and the cleaner, after which more items than the limit exist and none has been closed.

**C36 Chapar path reversal**

* `C36_length_violated`: the length of the reverse is never the length of the path.
* `C36_short_violated`: paths of no or one hop make it panic.
* `C36_twice_violated`: reversing twice never gives the path back.

**C38 Broadcasting and initialising the port table terminates**

* `C38_broadcast_violated`: broadcasting never ends, whatever sending does.
* `C38_init_violated`: neither does initialising the port table.

**C54 Set-Cookie text round trip**

* `C54_samesite_with_boolean_panics_violated`: every Set-Cookie value with SameSite and a boolean attribute is written as a text that makes the reader panic.

**C56 Lists of codings are taken apart from the end**

* `C56_single_coding_truncated_violated`: reading the last coding of a list with one coding (no comma) loses its first byte.
* `C56_rest_truncated_violated`: taking the last coding off a longer list also removes the byte before the comma.
* `C56_leading_comma_panics_violated`: a list that starts with its only comma panics.

**C59 A periodic timer's next deadline lies in the future**

* `C59_late_exact_violated`: run at least one period late, a periodic timer gets the deadline that lies as many whole periods before the missed one (but one) as it is late; and if that is before the beginning of time it gets the last moment there is, so that it never runs again.
* `C59_late_timer_violated`: A periodic timer that is run at least one period late is not rescheduled into the future: its next deadline is not after the missed one, so it is due again at the same `now`. The sign of the lateness is reversed in the code.

**C62 When the scheduler has looked at the queue, no due timer is left waiting**

* `C62_front_blocks_violated`: **C62** violated in every reachable queue of armed timers whose first one is not due yet, as a ticking timer that kept its place at the front is not: the check runs no timer at all, however late the others are, and changes nothing.
* `C62_periodic_blocks_others_violated`: With a periodic timer it fails: the ticking timer keeps its old place at the front of the heap, and the one-shot timer behind it is not run although its deadline (5) has passed.

**C65 The scheduler's check always completes**

* `C65_ticker_that_resets_itself_violated`: A look of the scheduler that runs a periodic timer whose callback resets that timer never returns: the entry stays at the front of the heap, is found to be reset, and `AddTimer` locks the queue a second time.
* `C65_check_after_reset_violated`: If a timer was reset to an earlier deadline, and that deadline has come, and any timer in the queue is not simply waiting, the check panics: it walks over the slots its own removals cleared.
* `C65_check_violated`: both failures occur from the initial state: after one timer was moved to an earlier time and that time has come, the check panics; after it was moved to a later time and the old time has come, the check waits for itself for ever.

**C68 The timing wheel runs a timer after its period**

* `C68_every_period_drifts_violated`: **C68** violated for ticking timers of every period: on every wheel, the tick that runs a timer whose period is `k` intervals puts it `k` slots after the position the wheel has *already moved on to*, so that the next `k` ticks skip it and it runs again on the tick number `k + 1`: a period of `k + 1` intervals instead of `k`.
* `C68_tick_panics_violated`: **C68** violated for ticking timers near the end of the wheel: on every wheel, the tick that runs such a timer panics as soon as its next slot lies past the last one, however short the period is.
* `C68_no_wrap_violated`: A period that reaches past the end of the wheel, although it is shorter than one turn, panics: positions do not wrap around.
* `C68_one_shot_runs_at_once_violated`: A one-shot timer (period zero) does not wait for its deadline: it runs inside `AddTimer`.
* `C68_period_drifts_violated`: A ticking timer with a period of one interval fires on every second tick only, and brings the wheel down on the first turn when the number of slots is odd.

**C69 Object pool hands out the most recently returned item**

* `C69_lifo_violated`: whenever the hot slot is empty, of two items put one after the other the next `Get` returns the older.
* `C69_hot_item_first_violated`: with an item `h` in the hot slot, the next `Get` returns `h` and not the item just put.

**C70 Closing a pool closes every idle item**

* `C70_close_leaks_violated`: the hot item and the items waiting for the second clean-up round are not closed by `Close`; once the last user is outside, nobody will ever close them.

**C74 Monotonic clock seconds and nanoseconds within the second**

* `C74_second_elapsed_violated`: the 'seconds elapsed' of the monotonic clock are its nanoseconds.
* `C74_nano_in_second_violated`: the 'nanoseconds within the second' are always zero, and at time zero asking for them panics.

**C79 Error equality is an equivalence that wrapping does not change**

* `C79_wrapped_nil_violated`: wrapping nil, or with nil, gives nil. The pointer that comes back is nil, and used as an error it is not: the comparison with nil says no, the comparison with any error panics, asking for the past panics, and wrapping it once more makes an error of something where there was none.

**C81 A user identifier gives back the type and time it was made with**

* `C81_type_violated`: the type of a new user identifier is always read as unset, whichever type it was made for.
* `C81_time_violated`: the time of a new user identifier is always read as zero, whenever it was made.
* `C81_set_time_violated`: setting the time of a user identifier never changes it, for every identifier and time; a slice too short for the field panics.

**C82 The arguments written for an object are read back**

* `C82_roundtrip_violated`: whenever an object has a field with a text, reading its arguments back fails at the first of them, and nothing is set: names are written without a dash.

**C87 A JSON codec returns the text of the object it wraps**

* `C87_error_dropped_violated`: an error of the object's `ToJSON` is never reported by `Marshal`, for every object.
* `C87_stale_violated`: after a first `Marshal` that produced text, changing the object does not change what `Marshal` returns; `MarshalTo` does follow the object.
* `C87_refused_text_violated`: text that the object refused is still what `Marshal` returns afterwards.

**C90 TCP options: the option list is walked to its end**

* `C90_other_option_violated`: as soon as the options, after any maximum segment size options, contain one of any other kind, including the one-byte no-operation, the loop never ends.
* `C90_truncated_violated`: a maximum segment size option that is cut off panics.
* `C90_next_violated`: what follows is not found, for no option of that kind and no options behind it.
* `C90_next_lands_violated`: where these four lead: behind timestamps, to the last byte of the option itself; behind the others, past the one or two first bytes of what follows, with a panic when there are not as many.

**C91 TCP connection attempts: the retry limit is reported once and for all**

* `C91_wraps_violated`: the counter wraps, and once it has the limit is not reported.
* `C91_reinit_violated`: `Reinit` keeps the count, so a reused stream starts with the retries of the one before.

**C93 TCP stream timer: a stream's timer is armed with the earliest wait**

* `C93_never_armed_violated`: the stream's timer is never started, whatever the configuration, the clock and what happens to the stream, so no keep-alive check is ever made. (The smallest wait is looked for starting from zero.)

**C95 A pool's length is the number of its idle items**

* `C95_len_of_empty_violated`: a pool that was just initialised is empty, but reports a quarter of its limit; so it does for every limit of at least four.
* `C95_len_misses_hot_item_violated`: returning an item to a pool with a free hot place does not change `Len`.

**C96 URI text is split into its parts**

* `C96_old_parts_stay_violated`: an object that is used again keeps the query and the fragment of the URI it held before when the new text has none.
* `C96_colon_in_path_violated`: in an origin-form text with a colon, everything before the colon is taken for the scheme (and the text is read, if two bytes follow the colon).
* `C96_no_path_violated`: in `scheme://authority` without a slash after the authority, the authority is not found (the object keeps its old one) and the whole text is taken for the path.
* `C96_question_in_fragment_violated`: a question mark in the fragment of a text without a query: the path then contains the number sign and the fragment up to the question mark.

**C99 Changes to a URI show in what is written**

* `C99_set_after_write_violated`: once a URI was written or read, changing its parts does not change what is written.
* `C99_reinit_violated`: a URI that was reinitialised and filled again is written as the empty text.
* `C99_len_violated`: the exception does occur, for every scheme, authority and query.

**C100 An authority is split into user, host and port**

* `C100_user_host_violated`: of an authority with user information, the host and port that come after the `@` are never read. Host and port are cut out of the user information instead.
* `C100_uri_host_violated`: reading a URI never sets host and port, whatever its authority is.

**C110 Web content is served for every path**

* `C110_missing_page_panics_violated`: a path that no file has, in an application without an English main page, stops the handler with a nil dereference, for every request and response.

**C112 Files and directories asked for by name can be used**

* `C112_file_unusable_violated`: a file asked for by name can be used, whether it existed or is made new. Here, after every history of calls and whatever the operating system answers, `File` returns an interface that is not nil and holds no file: every operation on it panics, nothing is made, and the directory is unchanged.
* `C112_directory_unusable_violated`: a directory asked for by name can be used. Here, after every history, `Directory` returns an interface that is not nil and holds no directory, and the list of known directories never changes.
* `C112_mkdir_again_violated`: a directory is made once. Here a new name is made again at every call, because it is never recorded.
* `C112_search_violated`: a search in all directories answers. Here, after every history, the search for a file panics as soon as the root has a directory on disk, and finds nothing otherwise; the order in which the map is visited does not matter.
* `C112_delete_panics_violated`: deleting removes the object. Here, after every history, `Delete` of any path first asks the operating system to remove it and then panics.

**C115 File content is kept**

* `C115_empty_reader_violated`: a file whose content was replaced from a reader is what the reader gave. From a reader that writes itself and is at its end (as the readers of texts and byte slices of the standard library do), the content becomes unset instead of empty: reading it gives what the disk holds under its path, whatever that is, and saving it writes nothing, so that the old content stays.

**C117 Socket states do not block, and standard deadlines keep their meaning**

* `C117_status_blocks_violated`: announcing a status does not block the caller. Here it blocks for ever when the channel is full, and always on a socket made by `Init`, whose channel nothing makes: the status is stored and the goroutine that runs the timers stops.
* `C117_std_deadline_violated`: in the standard library's terms, the zero time removes the deadline and a time in the past expires at once. Here the zero time sets the deadline to this very moment, and a time in the past is a negative duration, which is taken for "no time limit".
* `C117_std_one_direction_violated`: `SetReadDeadline` limits reading and `SetWriteDeadline` writing. Here, for every socket, clock and deadline ahead, each leaves the limit of its own direction as it was and sets that of the other direction.
* `C117_addresses_violated`: the addresses of a connection are those of its two ends. Here every two connections answer the same addresses, the same for both ends, and no connection answers its own port.
* `C117_std_settings_violated`: closing one direction and the settings of a connection take effect or report an error. Here every one of them reports success and leaves the socket as it was.
* `C117_deadline_now_violated`: a deadline that is exactly now leaves the deadline one nanosecond in the past in the field for writing (and no deadline in the one for reading), a deadline of the zero time makes both of them now.

**C119 A queue keeps what is written**

* `C119_write_panics_violated`: bytes written to a queue can be written, and read back in order. Here no queue a user can make takes any write: whatever calls came before, `Write` panics, for every slice, and `Read` delivers nothing.
* `C119_never_full_violated`: a queue takes no more than its capacity and says when it is full. Here it never says so, whatever its capacity and contents.
* `C119_overwritten_violated`: even with a head in place, a second write keeps the first one and the lengths count the bytes. Here the first write leaves the length of the head zero, so the second one replaces it; both report zero bytes written.
* `C119_middle_lost_violated`: with a filled head, every write is kept. Here each write is put directly behind the head, so only the last one stays.

**C124 Generated encoders and decoders**

* `C124_unused_variables_violated`: no generated decoder compiles. Whatever the type, the decoder starts with the declaration of two variables, `add` and `ln`, and no line of it uses either; the language forbids unused variables.
* `C124_uint64_slice_violated`: the contents of a slice of `uint64` are lost. The generated heap length has no term for it, the buffer has no room and the copy into it stops at its end: for every slice, what is decoded is a slice of the same length made of zeros.
* `C124_float64_array_violated`: an array of `n` `float64` gets half the bytes it needs, so that values which differ only in their second half are encoded the same: what follows the array overwrites it, or the buffer ends.
* `C124_string_slice_violated`: the heap length of a slice of strings forgets the 8 bytes every string needs for its own place and length. Whenever the strings hold fewer than 8 bytes each on average, the encoder runs over the end of the buffer of the generated length and panics.
* `C124_string_array_violated`: an array of strings takes no room on the stack and is not decoded. The field after it, whatever its type, is written at the very same offset, and the decoder has no line for the array. Only the heap length counts the bytes of its strings.
* `C124_short_array_violated`: the decoder of an array accepts a buffer that ends before it: the array is then zero from there on.

**C127 Nested structs in generated code**

* `C127_no_allocation_violated`: the form `syllabEncoder() (buf []byte)` of the method gets a body whose allocation is only a comment. For every type with a number as its first field the generated body writes into the nil slice and panics, for all values.
* `C127_anonymous_violated`: a struct with an anonymous struct in it is refused: the generator takes the name of the inner struct's first field for the name of its type.
* `C127_endless_violated`: a type whose anonymous inner struct starts with a field named like the type, as in `type T struct { a struct { T int } }`, makes the generator call itself without end.
* `C127_nested_violated`: the code of a struct inside a struct destroys the outer one. For a struct of a byte and a struct of another package that itself is one byte, with generated methods: the inner byte is written over the outer one, and its own place stays zero, for all values.

**C129 Compressing a codec**

* `C129_gzip_error_violated`: the gzip compressor drops the error of its source: it answers with no bytes and no error, which is not even valid gzip.
* `C129_reinit_violated`: a compressor that is initialised for another source keeps the data of the first one: it never compresses the second.
* `C129_level_violated`: with a level the library does not accept, every call that compresses panics: the error of making the writer is dropped.
* `C129_write_count_violated`: the number of bytes `WriteTo` says it has written is the length of the source, not of what was written.

**C131 Framework errors as Go errors**

* `C131_back_violated`: an error converted to a Go error cannot be converted back: for every error that panics. So does every error of the standard library.
* `C131_identity_violated`: two errors that are not equal give the same Go error when their summaries agree.

**C132 Characters of compressed text**

* `C132_last_violated`: the last character of a text cannot be decoded unless it is four bytes long: for every shorter one the decoder reads behind the end and panics. So does the empty text.
* `C132_compress_violated`: compressing a text and expanding it again loses every text that is not empty, and neither step reports an error; every sequence of bytes counts as a valid compressed text, also one that does not start a character and one whose decoding panics.

**C133 Files made for the web interface**

* `C133_stale_violated`: the name of a script is made before the style sheets are put into it. Whenever a style sheet is named in a script, two contents of the sheet with different checksums give the same name of the script and different contents of it, so a browser that kept the first one, as it may for a name made from a checksum, shows the old style.
* `C133_compressed_stale_violated`: the script is compressed before the style sheets are put into it: what the compressed file holds is the script as it was, with a name of a style sheet that is not the one served, and the script itself is another text.
* `C133_page_empty_violated`: the landing page is opened but never read: without a file `main-<lang>.html` from elsewhere, what is served for a language is what is made of an empty file, whatever the landing page holds.
* `C133_landing_json_violated`: the name of the locale file is made with the dot of `a.html` left in, so `a.json` is not read. Without files called `….json` with two dots no page is localised, whatever the other locale files hold: the only change is empty files.
* `C133_reload_violated`: the sheets made by one pass are style sheets in the same directory, so the next pass makes sheets of them: from one sheet, `r` passes over the sheets there leave at least `r + 1` of them, all with different names.
* `C133_substring_violated`: C133 violated for two sheets of which one name is the end of the other, such as `a.css` and `dark-a.css`: when the shorter one is taken first, the script names neither of the files made of the longer one: what it names is `dark-` and the name of the file made of the shorter one.

**C150 Ciphers keep secrets and applications have their own keys**

* `C150_secrecy_violated`: whatever the block cipher is, neither GCM nor CCM changes a single byte of any text.
* `C150_tampering_violated`: both modes accept every buffer, also one that nobody encrypted.
* `C150_key_violated`: all keys are the same key, and every block is left as it is.
* `C150_application_keys_violated`: any two applications get the same pair of keys, and its private key is its public key.
* `C150_round_keys_violated`: for every key all sixty words of both schedules are zero.

**C152 Pages of an application are found by their path**

* `C152_register_violated`: no page can be registered, the call panics.
* `C152_navigate_violated`: after activating any page there is no active page, no home page and no page.

**C153 Files are sorted by the time they were changed, the newest first**

* `C153_order_violated`: whenever two files were changed at different times the files are not in descending order.

**C157 Errors keep their kind**

* `C157_wrapped_violated`: an error wrapped with another one is not internal, temporary or a timeout any more, whatever both of them were.

**C165 A timer is served on whichever core it is started**

* `C165_start_up_violated`: **C165** violated for programs told to use more cores than there are: with `GOMAXPROCS` above the number of logical cores, the package panics while the program starts.
* `C165_core_number_violated`: **C165** violated for the number a queue keeps of its core: the whole start-up runs on one core, and every queue gets the number of that core, not its own.
* `C165_unserved_violated`: **C165** violated for cores past the first `GOMAXPROCS`: a program that runs on fewer cores than the machine has can still be put on any of them, and a timer started there is never run, however often and however late the loops run.
* `C165_no_queue_violated`: **C165** violated for processes that may not run on every core of the machine: the number of a core can be past the number of cores the process sees, and starting a timer there panics.

**C168 Texts of times**

* `C168_text_is_placeholder_violated`: the text of every monotonic time is the placeholder `TODO:::` and that of every other time is empty, both without an error.
* `C168_same_text_violated`: all times have the same text, so no reader can tell them apart.
* `C168_read_violated`: every text is accepted without an error and changes nothing.
* `C168_atomic_violated`: reading any text, even the one it was written as, sets it to 0 without an error.

**C169 Renaming, copying, moving, wiping and hiding**

* `C169_move_violated`: **C169** violated for `Rename`, `Copy` and `Move`: each answers without an error and asks nothing of the operating system. A file that was found under the old path is still found there, a new path that led to no file still leads to none, and no file changed.
* `C169_missing_violated`: **C169** violated for `Rename`, `Copy` and `Move` of a path that leads nowhere: no error tells so.
* `C169_wipe_violated`: the contents of the file are never written over. Wiping asks the operating system for one thing, the removal of the path.
* `C169_directories_violated`: whatever the directory holds and whatever is asked for, none is listed.
* `C169_hidden_directory_violated`: the path a directory is made with ends with a slash, so its name is empty and asking whether it is hidden panics.

**C170 Network multiplexers of the operating system**

* `C170_never_called_violated`: **C170** violated for `Shutdown` of the operating system: whatever was registered before, no multiplexer is told to shut down.
* `C170_other_header_violated`: **C170** violated for every other header, as that of IPv6: the multiplexer is registered nowhere, and no error tells so.

**C171 Values of TCP options**

* `C171_one_byte_violated`: **C171** violated for the options with a value of one byte, as the window scale: when options follow, the value read is 256 times the one that was sent plus the kind of the next option, and it is right only for zero before the end mark; at the end of the options reading it panics.
* `C171_four_bytes_violated`: **C171** violated for the options with a value of four bytes, as timestamps: the lower half of the value is never read, so that the value is right only when it is zero.
* `C171_announced_violated`: whatever segments arrive, with whatever options, a stream keeps sending segments of 536 bytes, and handling an option of any kind changes nothing of the stream.

**C173 Writing any codec into any other**

* `C173_into_socket_violated`: **C173** violated for every socket as the destination: whatever is to be sent — another socket, JSON, compressed or decompressed contents, or a URI that is not empty, alone or as the body of a message, in however many bodies — the call never returns. The two codecs ask each other to do it, until the stack is used up; and a URI is handed to a loop that sends nothing of it, for ever.
* `C173_lost_violated`: **C173** violated for a URI and a path as the destination, and for a path as the source: the call returns without an error and nothing is handed over, whatever the source holds.
* `C173_gunzip_violated`: a URI can be handed to it, but everything else is refused, although it takes bytes.
* `C173_empty_uri_violated`: **C173** violated for the empty text of a URI written into another URI: it panics.

**C174 The routing extension header of IPv6 packets**

* `C174_next_violated`: the length counts units of eight bytes and is added as bytes: behind every header with further data the next frame is looked for at the wrong place, whatever the packet.
* `C174_wraps_violated`: the sum wraps around: for the length 248 the next frame is the header itself, so that walking the headers never ends, and for every greater length it starts inside the fixed part.
* `C174_optional_violated`: `Optional` panics on every packet whose length is below eight, a header without further data among them, and returns too little of the further data of every other header.

**C175 New tickers**

* `C175_failed_period_violated`: without a callback the ticker is handed out all the same, and calling `Init` on it gives it the callback, so that a later `Start` makes it tick with the interval of the call that failed: the failed call left the period behind.

**C176 Media types made from texts**

* `C176_bad_text_violated`: a text without a slash is not reported: reading it panics, and leaves a media type with the new text, the old parts and the old identifier.
* `C176_parameters_violated`: whatever follows the slash is the sub type: suffix and parameters are part of it, so that the sub type of a text with parameters is never the sub type of the text without.

**C177 Syllab booleans, floating point numbers, complex numbers and fixed arrays round-trip**

* `C177_bool_violated`: **C177** for booleans is violated on a buffer that is not zero: `false` is not written.
* `C177_float32_violated`: **C177** for floats is violated for every conversion that truncates, e.g. for any value `x` that the integer conversion does not preserve.
* `C177_complex_violated`: **C177** for complex numbers is violated even when both conversions are exact: the imaginary part is written at offset 3 (7) and read at offset 4 (8).
* `C177_complex_byte_violated`: **C177** for complex numbers is violated on every buffer, for every real part and every imaginary part whose highest byte is not the one already in the buffer: that byte is never written, and the number does not come back.
* `C177_fixed_array_getter_violated`: the fixed byte array getter returns an empty slice for every buffer, index and length.

**C178 The Syllab encoder does not truncate contents**

* `C178_short_heap_violated`: when the heap is too short for the contents, the encoder silently truncates them, and the decoder answers with the missing bytes replaced by zeros.
* `C178_short_heap_any_violated`: **C178** violated for every buffer that ends before the contents do: encoding reports success, and decoding answers the contents with every byte that did not fit replaced by zero. It is the value that was encoded only if all these bytes were zero.

**C179 Per-N calculations for large products and large N**

* `C179_overflow_violated`: **C179** fails for every calculator whose product overflows: two hundred percent of 2^63 is 0.
* `C179_trillion_violated`: **C179** is violated by per trillion and per quadrillion: they are per-million calculators.
* `C179_overflow_wraps_violated`: **C179** violated for every product that overflows by at least the divisor: the calculators divide the product cut to 64 bits, so the result is too small by at least one, for every rate and number with such a product.

**C180 Empty header values and empty names**

* `C180_iteration_stops_at_empty_value_violated`: the walk stops at an empty value although more values follow.
* `C180_iteration_stops_at_any_empty_value_violated`: **C180** violated for every list of values with an empty one: walking the lines gives the values before the first empty one and then reports the end, for ever, whatever values follow.
* `C180_empty_name_always_empty_violated`: it always reads as empty, after every history, whatever was added under it: the blank lines made by `Init` answer first.

**C181 A malformed service identifier is refused**

* `C181_malformed_query_is_identifier_zero_violated`: it never reports an error, so for every request whose query is not valid base64 the documented 400 is replaced by whatever identifier 0 is registered as.

**C182 Sanitised cookies contain only legal bytes**

* `C182_semicolon_survives_violated`: every value and path that contains a semicolon still contains it afterwards, although the grammar forbids it; a value that is otherwise legal is passed without any error.
* `C182_name_separators_survive_violated`: bytes that are no token characters (here `=`, `;` and space) pass unchanged and without error.
* `C182_name_any_byte_survives_violated`: any byte other than a line break passes unchanged and without error, be it a separator, a space or a control character.

**C183 An item the pool has cleaned up is never handed out**

* `C183_close_race_violated`: a `Get` in flight during `Close` receives an item that `Close` has just closed.
* `C183_close_race_any_violated`: **C183** violated in every state of a running pool where the next item that would be handed out is an idle one: a `Get` that has looked at the state of the pool and is then overtaken by `Close` receives the item although `Close` has closed it, together with all other idle items.

**C184 Reading from a flat buffer returns the unread content**

* `C184_read_returns_nothing_violated`: `Read` on a buffer with unread data returns no bytes, whatever the destination, and leaves destination and buffer as they were.
* `C184_last_byte_unreadable_violated`: the last unread byte cannot be read by `ReadByte`; it returns zero without an error and does not move.
* `C184_read_at_violated`: `ReadAt` ignores the range it is asked for, returns nothing and marks everything as read.
* `C184_set_then_read_violated`: setting a buffer shorter than what was already read makes `Read` panic.

**C185 The Luhn generator completes every payload**

* `C185_checksum_odd_any_violated`: with a payload of even length the second function doubles exactly the digits it should not, so that the check digit it returns is that of the other parity, the number is accepted if it ends with that digit, and the digit is the right one only if both sums happen to agree in the last place.
* `C185_checksum_odd_violated`: C185 is violated by the second function on numbers of odd length: it doubles the wrong digits. For every `k`, the valid number `18` with `2k+1` leading zeros is rejected.
* `C185_checksum_empty_violated`: the empty slice makes the second function panic.

**C186 Adding a duration to a wall-clock time**

* `C186_add_not_normal_violated`: the result of `Add` is not normalised. For every second `s`, adding a nanosecond to the last nanosecond of `s` gives a time that stands for the same instant as the beginning of the next second, yet the latter is reported as later.
* `C186_add_goes_back_violated`: two additions of the same positive duration can move the time back. From any normalised time whose nanosecond part is the largest, adding 0.999999999 s twice overflows the nanosecond part.

**C187 Hour of the day, and weekday before the epoch**

* `C187_before_epoch_any_violated`: **C187** violated for every time before the epoch: with `s` seconds before it, the reported day is Thursday less the whole days of `s` in its week, and from four such days on the code panics. It is the true weekday (the day number counted from Monday) exactly for midnights up to three days of the week back.
* `C187_hour_before_epoch_violated`: **C187** violated for the hour of every time before the epoch: the code panics, except within one hour after a midnight's mirror image: there it reports hour zero, which is right only at midnight itself.
* `C187_before_epoch_violated`: one second before it (a Wednesday) is reported as Thursday, and four days before it the code panics.
* `C187_hour_constants_violated`: the named constants are shifted by one, so at no time does the constant of the current hour match; from one o'clock on the constant of the previous hour does.

**C188 Short identifiers, order of identifiers and failures of the random source**

* `C188_random_failure_violated`: when the random source fails at once, identifiers made at the same time in variables with the same content are equal: the error is ignored.
* `C188_incremental_violated`: the documentation calls the identifiers incremental by time; the byte order is not chronological: of two identifiers made one second apart the later one can sort first.
* `C188_id32_violated`: the short form of a time-based 32-byte identifier is just the second it was made in: all identifiers of one second share it.
* `C188_bad_id_text_violated`: a text that does not decode is read as zero without an error, when at most eight bytes were written before the bad place.
* `C188_new8_violated`: the 8-byte identifier contains no random byte: identifiers made in the same second are equal, whatever the random source yields and whatever the variables held.
* `C188_newHash8_violated`: the same for hashed 8-byte identifiers: the data do not matter.
* `C188_incremental_any_violated`: whatever the variables held and whatever the random bytes are, an identifier made in a second whose number ends in the byte 255 sorts after one made a second later.

**C189 TCP data offset and first flag byte can be set**

* `C189_data_offset_violated`: on a segment with a data offset, setting a smaller one is without effect, for every pair of which the new one is the smaller.
* `C189_flag_part_one_violated`: the setter of the first flag byte cannot clear a flag and changes the data offset when the argument has high bits.

**C190 Options and payload of a checked TCP segment**

* `C190_small_offset_violated`: a segment whose data offset is below the fixed header passes the check, and reading its options panics.

**C191 Header fields that share a byte, and lengths announced in headers**

* `C191_ipv4_short_packet_violated`: packets with a complete header and less than 20 bytes of data are rejected as too short, because the minimum is the header length of IPv6.
* `C191_ipv4_options_violated`: the options of a packet contain its whole payload.
* `C191_ipv4_version_violated`: setting the version clears the header length.
* `C191_ipv4_dscp_violated`: a differentiated-services code point is never read back, unless it is zero; for every packet with that byte clear.
* `C191_ipv4_fragment_offset_violated`: the fragment offset is never read back; whatever 13-bit offset is stored, zero is read.
* `C191_ipv4_fragment_flags_violated`: setting a fragment offset clears 'do not fragment' and 'more fragments'.
* `C191_ipv4_ecn_violated`: marking a packet as ECN-capable makes it look congested.
* `C191_ipv6_version_violated`: setting the version clears the upper half of the traffic class.
* `C191_ipv6_traffic_class_violated`: setting the traffic class clears the upper part of the flow label.
* `C191_ipv6_flow_label_violated`: a flow label cannot be replaced; bits of the first byte accumulate.
* `C191_udp_set_length_violated`: the length written is not the length read; the length field keeps its upper byte and gets the upper byte of the new length as lower byte, and the checksum is damaged.
* `C191_udp_payload_violated`: bytes after the announced length are part of the payload.
* `C191_gp_following_frame_violated`: a frame followed by another frame does not pass the check.

**C192 Chapar frames that pass the check are safe, and broadcast frames can be made**

* `C192_checked_panic_violated`: the check promises that the other methods do not panic; a frame that passes it makes the switch panic whenever its hop number points past its end.
* `C192_header_violated`: from the 254th hop on, the port number is stored over the header: at hop number 253 the frame type is replaced by the port number.
* `C192_broadcast_path_violated`: no broadcast frame has a path: asking for it panics (the end of the path wraps to two).
* `C192_init_broadcast_violated`: a frame initialised without a path is meant to be a broadcast frame and is not one.

**C193 An error with identifier zero is refused**

* `C193_zero_violated`: outside developer mode an error with the identifier zero is registered without complaint and never found by it: the answer is nil, no error at all.

**C194 Service registry: duplicates are reported, the two indexes agree, the list is complete**

* `C194_indexes_violated`: they do not agree in general: of two services with one text and two identifiers, the second is found by its identifier but not by its text, and deleting it removes the first from the text index.
* `C194_duplicate_unreported_violated`: a duplicate is not reported to the caller.
* `C194_services_list_violated`: the list of all services begins with 512 nil services and keeps deleted and refused ones: it is all registrations of the history with a non-zero identifier.

**C195 Every value can be given to every flag on the command line**

* `C195_empty_value_violated`: an empty value cannot be written: behind `-name=` the next argument is taken as the value (and `true` for a boolean), for every flag.
* `C195_abbreviation_violated`: abbreviations are not checked: a flag can be declared that can never be set by its name, because an earlier flag has that abbreviation.

**C196 JSON: negative numbers, quotes, empty lists and unknown members**

* `C196_int_violated`: C196 fails for the ordinary decoder on every negative number: the sign is dropped, so the result is the absolute value, or an error for the smallest number.
* `C196_quote_violated`: C196 fails for every string with a quote character: the encoder does not escape it, so the decoder returns the part before the first quote.
* `C196_encode_empty_violated`: the encoder removes a comma that was already in the buffer, and panics when the buffer is empty. Nothing is lost only when the buffer ends in another byte.
* `C196_decode_empty_violated`: after `[]` the ordinary decoder takes the numbers of the next list in the text as the elements of this one.
* `C196_min_empty_violated`: C196 fails for the empty list with the minified decoder: `[]` is refused.
* `C196_stale_token_violated`: After an array has been decoded the end token `]` is still remembered, and the next list is decoded as empty whatever it holds.
* `C196_list32_minified_violated`: C196 fails for lists of 32-byte values with the minified decoder: started at the opening bracket it skips the first base64 character and takes the closing quote in, so every non-empty list is refused.
* `C196_unknown_member_violated`: if the value is a string with an end token in it, the decoder stops inside the string, at the token, and takes the token for the one after the member.
* `C196_unknown_member_cut_violated`: without an end token the unknown member is not passed over and nothing is said about it.
* `C196_list32_cut_off_violated`: **C196** violated for a list of 32-byte values that is cut off: if fewer than 43 bytes follow the quote that opens the value, the decoder panics, whatever they are; with exactly 43 bytes it decodes them.

**C197 Localised HTML pages**

* `C197_html_violated`: the result is not the filled page (it has one more byte for every placeholder).
* `C197_panic_violated`: a placeholder whose number has no text panics, and so does one that is never closed.

**C198 Parsing the text of a signed integer**

* `C198_signed_violated`: **C198** is violated for signed integers of every positive width: parsing stores nothing.

**C200 A Tick that returns an error changes nothing**

* `C200_failed_tick_any_violated`: **C200** violated for every `Tick` on a timer that is already started: it answers with an error, and the running timer has the new period from then on.
* `C200_failed_tick_violated`: A `Tick` that returns an error because the timer is already started makes the running one-shot timer periodic.

**C201 A pool with an idle item serves a request**

* `C201_idle_item_withheld_violated`: `Get` returns nil although an idle item is in the pool.
* `C201_idle_item_withheld_any_violated`: **C201** violated in every state where the newest idle slot is an empty one, as all slots are after a cleaning: at the limit of items `Get` returns nil, whatever items the other idle slots and the slots of the last cleaning hold.

**C202 Extending the length of a buffer**

* `C202_grow_len_nil_violated`: on a nil buffer `GrowLen(n)` leaves the length zero.
* `C202_grow_len_stale_violated`: `GrowLen` can expose bytes written before a `Reset`.

**C203 Writing IPv6 addresses, '::' and bad texts**

* `C203_text_violated`: writing an address panics, except for the unspecified address.
* `C203_unspecified_violated`: `"::"` should give the unspecified address; it leaves every address as it was.
* `C203_short_text_violated`: errors are not reported: fewer than eight groups without `::` are stored at the front and the rest of the address keeps its old bytes.

**C204 Chapar connections use the right path**

* `C204_alternative_lost_violated`: C204 violated, over the history of a connection: on a connection made of a received frame, an alternative path that is added, however different, and then changed to, is lost when its bytes beyond the length of that frame are zero, as those of every path not longer than the frame are: the connection sends by the same path as before, has that path a second time as its only alternative, and a further change leaves it so.
* `C204_path_from_peer_violated`: a connection made from a frame takes the whole frame, header included, for the path from the peer: its first bytes are the frame type, the hop count and the hop number.
* `C204_write_frame_violated`: a frame written for a connection always announces 255 hops, whatever the length of the path to the peer.
* `C204_change_path_violated`: changing to an alternative path does not use it: the new path to the peer begins with the reverse of the path from the peer, for every alternative chosen.

**C205 A command called without words shows its help**

* `C205_help_violated`: a command whose sub commands have one named `help` panics when called without arguments, whatever that command does.

**C206 File names: name without extension, kinds of paths and path parts**

* `C206_codec_violated`: the codec of a file URI loses it: encoding any URI gives no bytes and adds none, and what is decoded from it has neither path nor name, whatever the two URIs were.
* `C206_dot_violated`: for every name with a dot, the name without extension still ends with the dot.
* `C206_unmarshal_violated`: after `Unmarshal` the extension is still the old one, and asking for the name without it panics whenever the new name is shorter.
* `C206_is_directory_violated`: every file in a directory is reported to be a directory, and asking panics for every other.
* `C206_parts_violated`: behind a double slash a part begins with a slash.
* `C206_parts_exact_violated`: the parts of a path are free of slashes if and only if no two slashes follow each other anywhere in it.

**C207 Bare names and paths above the root**

* `C207_bare_name_violated`: a bare file name is never found, even if the file is in the same directory.
* `C207_above_root_violated`: a path that goes up beyond the root panics.

**C208 A combined script holds each module after the modules it imports**

* `C208_order_exact_violated`: **C208** violated exactly for the modules that are collected again behind what they import: for every list of collected modules, each is in the script once, and a module stands behind another one if and only if, in the list, the last place of the other one is behind the last place of the module. So a module that is imported again after its imports were collected stands before them.
* `C208_first_line_violated`: a script that begins with an import statement panics.
* `C208_order_violated`: a module that is imported twice can be placed before a module that it imports. Here module 1 imports module 3 and stands before it.
* `C208_recursive_violated`: C208 fails for the recursive inliner of a single script: it never adds an import, whatever the script imports.

**C209 Pages reach the scripts of an application**

* `C209_html_template_violated`: a script without a place for the template is lost, without an error.
* `C209_html_js_violated`: without a grave accent the page lands in front of the slot, and a script without a slot is lost, without an error.
* `C209_html_dropped_violated`: the page that belongs to a script never reaches the combined script.

**C210 TCP keep-alive: number of probes and time between them**

* `C210_probe_limit_violated`: a stream that stays idle, freshly checked at due times only, is probed for the first checks and closed at each later one. The documented limit (`CNF_KeepAlive_Probes`) is nine probes; the code sends ten.
* `C210_late_violated`: how late a check is, is taken off the time to the next one twice over: with the check `late` nanoseconds late, the following one is due `interval` after the time this one was due, less `late`. Late by the interval or more, it is already due; and on time, the due time does not move at all.
* `C210_user_timeout_violated`: once a check is due, the due time never moves forward while the stream is idle.

**C211 A refused start or close leaves a pool as it was**

* `C211_refused_init_revives_violated`: a second `Init` of a closed pool panics, yet the pool runs again and hands out what was in it; what `Close` closed is handed out afterwards.
* `C211_refused_close_kills_violated`: `Close` of a pool that was never started panics, and afterwards the pool can never be started.
* `C211_refusal_violated`: a refused call does not leave the pool as it was.

**C212 Reading a URI never panics**

* `C212_trailing_colon_violated`: every path that ends in a colon, as the last thing read, panics.

**C213 Colons, semicolons and the first error of a query**

* `C213_semicolon_any_violated`: **C213** violated for every setting with a semicolon in its value: it is taken, with the semicolon as part of the value.
* `C213_colon_refused_violated`: a setting with a colon in it is refused although it is well-formed; here for every key and every value with a colon.
* `C213_semicolon_accepted_violated`: a setting with a raw semicolon, which the documentation calls invalid, is accepted.
* `C213_first_error_violated`: the error is not the first one: a later bad key hides an earlier decoding error, for every list of verdicts.

**C214 A query that was never initialised can be changed**

* `C214_zero_query_violated`: changing a query that was never initialised panics.

**C215 An age of zero of a Set-Cookie value**

* `C215_zero_age_violated`: the comment of the type says that an age of zero means no Max-Age attribute; setting it writes `Max-Age=0`, which tells the browser to delete the cookie, and a negative age reads back as zero.

**C216 Errors of a response, and redirecting twice**

* `C216_second_redirect_violated`: redirecting a response that already names a Location keeps the old target.
* `C216_error_never_read_back_violated`: an error set on a response is never read back: reading gives no error, or looks up a different identifier, for every error whatever.

**C217 The length of a response is announced exactly once**

* `C217_empty_response_chunked_violated`: a response without a body is announced as chunked, and no Content-Length line is written for it, because `Body()` never returns nil.
* `C217_double_length_violated`: a length that the handler announced itself is doubled: two Content-Length lines are sent.

**C218 Strings made from or converted to bytes do not change**

* `C218_string_immutable_violated`: a Go string never changes. Here a store of a different byte at any index of the byte slice changes the string it was made of, and a store into a byte slice changes the string made of it.

**C219 Listings page by page**

* `C219_paging_violated`: a listing starts at `offset` and holds at most `limit` files. Here both are ignored: every page is the whole directory.

**C220 Appending to files, saving and deleting them**

* `C220_append_lost_violated`: bytes appended or prepended to a file are part of it. Here, for a file whose content is still on the disk, what is prepended is dropped, and what is appended goes to the file with the empty name.
* `C220_save_path_violated`: saving a file writes to the path of that file. Here a file made by its name is written to the empty path, and a file made by a longer path is written to its directory: the name is never part of the path written, nor of the path read.
* `C220_compress_type_violated`: the compress type of a file says how its content is compressed. Here asking for any other type than gzip records that type and leaves the content as it was.

**C221 Time limits of waiting, sending and closing of sockets**

* `C221_timeout_ignored_violated`: a reader waits no longer than its time limit. Here the states that say a limit has expired are ignored: as long as the message is not complete the reader waits, whatever else is announced.
* `C221_send_never_returns_violated`: sending returns once the bytes are sent. Here it never returns for any data but the empty one: nothing is sent and the loop goes on for ever.
* `C221_close_violated`: closing a socket through the interface of the standard library ends. Here it calls itself, and does not end however deep the stack is.
* `C221_std_write_violated`: writing through the interface of the standard library returns the number of bytes written. Here it returns only for no bytes at all, however long one waits.

**C222 Starting and stopping an application**

* `C222_change_dropped_violated`: every change of status reaches every listener. Here a listener that is not waiting and has no room never hears of it.
* `C222_never_stops_violated`: an application that was started is running, and a signal to stop it stops it. Here no history of calls ever makes it running, so in every history every signal to stop is ignored: no part is stopped and the status does not change.
* `C222_init_error_dropped_violated`: `Init` reports the failure of any part. Here the failure of the cryptography is dropped: whatever it is, the answer is that of the packet listener.
* `C222_stop_announced_twice_violated`: one stop is announced once. Here each listener with room for two gets "stopping" twice.

**C223 Every status change of a stream reaches a watcher**

* `C223_change_missed_violated`: every change of status reaches whoever watches the stream. Here the channel has no buffer, so in every history a change made while nobody waits is never delivered to anybody.

**C224 Elapsed periods given in nanoseconds, and time since**

* `C224_by_nano_short_violated`: the number of periods is the instant divided by the period. Here, for every period under a second and every time a second or more after the epoch, it is too small: the seconds are taken for nanoseconds.
* `C224_by_nano_mixed_violated`: for every period of one second or more that is not whole, the time after exactly its whole seconds lies before the end of the first period, but one period is reported.
* `C224_since_violated`: the time from one instant to another is their difference in nanoseconds. Here that holds exactly when both lie in the same second: whole seconds are counted as nanoseconds.

**C225 Names of sets of days**

* `C225_sets_unnamed_violated`: a set of days is told from no day. Here every set of two or more days, the whole week among them, has the same empty text as the empty set, and so has every day in a third language.

**C226 Fields of unsupported types are refused**

* `C226_left_out_violated`: fields of type `int`, `uint`, pointers, maps, functions, interfaces, and slices and arrays of these, of floats in a slice, or of any type declared by the user are left out without an error: the code of a struct is the same as if they were not there, but for 8 unused bytes per slice.
* `C226_embedded_violated`: an embedded field is left out without an error: it has no name to loop over.
* `C226_array_length_violated`: a struct whose length is the name of a constant stops the generator with a panic, and one whose length is written in another base with an error.

**C227 Unknown encodings of compressed forms are reported**

* `C227_unreported_violated`: it tells only of the last encoding. Unknown encodings before a known last one are not reported, and an unknown last one is reported as the error of the whole although the others were made.

**C228 Reading a Go package: test files, recursive types and all functions**

* `C228_test_files_violated`: test files are not left out, and neither are files that are no Go source by their name. The name makes no difference at all to what is taken from a file.
* `C228_recursive_violated`: a type with a field that points to a type of its own kind, such as a list, is looked up without end: no file that declares one is ever parsed.
* `C228_unnamed_violated`: an exported function with two parameters without names makes the parser panic, so no file with one is ever parsed.
* `C228_groups_violated`: parameters are counted by their groups. A function of two parameters written `(a, b T)` is not taken for a service, and one of three written `(a, b T, c U)` is, as if `b` were not there.
* `C228_results_violated`: results without names are not seen. Of a service `F(a A, b B) (T, error)` neither the result nor the error is recorded.
* `C228_methods_violated`: methods are taken for functions. A method of the name of a service that stands behind it in the file replaces the service.

**C229 Fields of open stream, data and signature frames**

* `C229_signature_id_violated`: the identifier of a stream is never read from a signature frame: eight bytes from the start are read, the length and two bytes of the signature among them.
* `C229_offset_violated`: the offset of a data frame has eight bytes and only the upper four are read. Every offset below 4 GiB is read as 0, so that all the payloads of a stream seem to belong at its beginning.
* `C229_data_lost_violated`: the data of a data frame goes nowhere: whatever data frames a socket gets, it has no more data than before and is never scheduled.
* `C229_open_violated`: the fields of an open stream frame overlap. Whatever the frame is, the lower six bytes of the service identifier are the upper six of the handler identifier, and the weight is the seventh byte of the data length: no frame can be made for a handler and a service that differ in them.
* `C229_open_next_violated`: an open stream frame as documented has 33 bytes, and the next frame is looked for after 25.
* `C229_signature_violated`: a signature frame has a length and a signature of any size, and the next frame is looked for after eight bytes whatever the length is: only behind frames of eight bytes is it found.
* `C229_short_length_violated`: a frame whose length is below that of its header makes reading the payload panic.
* `C229_data_signature_violated`: a data signature frame has a length, a stream and a signature of any size, and the next frame is looked for after eight bytes whatever the length is: only behind frames of eight bytes is it found.

**C230 What a reused HTTP message writes**

* `C230_reset_keeps_lines_violated`: the list of header lines of a request never shrinks. After any history it has sixteen blank lines and one more for every line ever added, however often the request was reset: a request that is reused keeps growing, and listing its header lists a blank line for each earlier one.
* `C230_reused_request_loses_its_uri_violated`: once a request has been reset, its URI is written as the empty text, whatever is set on it afterwards.
* `C230_no_body_drops_data_violated`: a body without codec, given data to read from, returns no remaining data although it took none: every byte given to it is lost without an error.

**C231 JSON over readers and writers: counts, errors, lengths and signs**

* `C231_decode_count_violated`: the number of bytes taken over is always reported as zero.
* `C231_read_from_violated`: reading from a reader takes nothing from it: whatever the reader holds, the object is decoded from the empty text and zero bytes are reported.
* `C231_write_error_violated`: when the object cannot be encoded, writing it to a writer writes the empty text and reports whatever the writer says, not the error.
* `C231_array_length_violated`: text of another length is not reported. One that is too short is accepted, and behind the bytes read the array holds zeros, as many as the library happens to write, and then what it held; one that is too long panics.
* `C231_float_sign_violated`: the sign of a negative number is passed over, as is a leading decimal point: the number read is the one that starts at the first digit.

**C232 Moving timers to another core and emptying a timer queue**

* `C232_move_armed_violated`: as soon as one timer of the queue is armed, moving the timers to another core never returns: the receiving queue's lock is taken twice. The same holds for emptying the queue.
* `C232_move_to_itself_violated`: nor does it return when the queue is not empty and belongs to the core that moves, which is the ordinary case.
* `C232_move_stopped_violated`: moving stopped timers away leaves them in the queue they came from, marked as removed, and the next time its scheduler looks at its timers the program is ended.

**C233 Taking signalling timers down and setting timers up again**

* `C233_deinit_twice_violated`: taking a timer down twice panics: the second time its channel is closed again.
* `C233_deinit_after_firing_violated`: a timer that has fired once, or was never started, cannot be taken down: the call reports that it is not initialised and its channel stays open for ever.
* `C233_restart_violated`: a timer that was set up again can never be started: every `Start` after it reports that the timer runs already.
* `C233_reset_after_reinit_violated`: and when it was armed, resetting it panics: it counts as stopped but no longer knows its queue.
* `C233_reinit_idle_violated`: a timer that is not running cannot be set up again, with whatever callback: the call reports that it is not initialised and changes nothing.

**C234 Minification keeps the words of a text and reports errors**

* `C234_words_joined_violated`: minifying HTML must not change what the page says. A line end is taken out without a blank in its place, so the words at the end and the start of two lines become one word.
* `C234_idempotent_violated`: a minified text must be minified. Taking out a line end can make a comment of what was none, that a second run takes out.
* `C234_error_dropped_violated`: a text the minifier rejects must be reported. The error is dropped: the answer is that of a success and the text is as before.
* `C234_css_lost_violated`: a style sheet the minifier rejects must be left as it is. The codec is given the empty text, and the answer is that of a success.

**C235 The number of set flags and the root command**

* `C235_nflag_violated`: `NFlag` must answer the number of flags that have been set. It answers the number of declared flags, whatever was set.
* `C235_root_violated`: `Root` must answer the command at the top. It never answers: it asks the command it has not found yet for its parent, and panics for every command.

**C236 The time until the next timer, and the loop that runs the timers**

* `C236_next_violated`: with enough stopped timers in the queue, the check at 10 answers 200 although the second timer was reset to run at 60.
* `C236_next_stopped_violated`: the check at 5 answers 10, the deadline of a stopped timer, although no timer is to run before 20.
* `C236_loop_idle_violated`: the loop asks to sleep for `0 - now`, a negative duration, and so runs round after round without any time passing.
* `C236_loop_new_timer_violated`: C236 violated for a timer started while the loop sleeps: nothing wakes the loop up, so the callback of a timer that is due at `now2 + d2`, before the end of the sleep, runs only when the sleep is over.
* `C236_tick_late_violated`: C236 violated for a periodic timer that runs between one and two periods late: its deadline stays where it was, so the check that runs it runs it again and again, however many callbacks (`fuel`) it is given.
* `C236_tick_very_late_violated`: C236 violated for a periodic timer that runs two or more periods late: its deadline goes back, so the same check runs it again (twice at least when the clock is at most twice the deadline), and in the end the deadline is the last moment of the clock: the timer never runs again.

**C237 Stopping a busy, a new or a stopped timing wheel**

* `C237_stop_busy_violated`: stopped while it serves a tick, or between two, a running wheel is said to have been stopped already; its goroutine does not end, in any schedule without a further stop.
* `C237_stop_late_tick_violated`: **C237** violated for a busy wheel with a signal waiting: it even serves one more tick after it was stopped.
* `C237_stop_before_start_violated`: `Stop` leaves no mark, so that it starts all the same.
* `C237_restart_violated`: once its goroutine has ended the channel is gone, and a wheel started again cannot be stopped any more: in every schedule, every `Stop` says that the wheel is stopped, and its ticker and its goroutine go on.
* `C237_stop_twice_violated`: a second `Stop` that meets the goroutine between closing the channel and clearing the field panics.

**C238 Reading identifiers from text, and identifiers made from names and times**

* `C238_read_violated`: reading a text leaves every identifier as it was and reports no error, whatever the text is. So an identifier that differs from the one written is not turned into it.
* `C238_random_failure_violated`: the bytes it did not give keep their old value, and nothing tells the caller.
* `C238_v5_violated`: the identifiers of any two names in any two name spaces are equal, and their version is not 5.
* `C238_v1_violated`: the identifiers of any two moments and machines are equal, and their version is not 1.
* `C238_nil_violated`: whatever they are made of, all sixteen bytes are zero, the nil identifier of RFC 4122.

**C239 Whole minutes, hours, days and weeks of a duration in nanoseconds**

* `C239_nano_violated`: every duration in nanoseconds is counted as if it were in seconds.
* `C239_nano_wrong_violated`: **C239** violated for every duration of a minute or more: the answer is wrong.

**C240 Setting parts of user information, and reading an URI from a codec**

* `C240_set_violated`: user information that was consistent is not any more once its name is set to another one, its password to another one, or its text to one with another name or password.
* `C240_decode_violated`: nothing is read, and the count is 0.

**C241 Bad or repeated typed header lines are refused**

* `C241_two_lengths_violated`: a second length is added beside the first one, the message then states two different lengths, and the reader answers the first without an error.
* `C241_bad_length_violated`: every Content-Length text with a byte that is no digit is accepted. It reads as zero, the same as an empty body; and when the digits before that byte are too many for 64 bits it reads as the largest number.
* `C241_large_length_violated`: **C241** violated for numbers of more than 64 bits: every such Content-Length is accepted and reads as the largest number.
* `C241_bad_expire_violated`: a text neither layout reads is answered by the zero time, so every such cookie looks as if it had expired, and no error tells it from a cookie that expires at the zero time.

**C242 Lookups of media types, and the list of encodings**

* `C242_media_not_found_violated`: a text, an identifier or an extension that nothing was registered under is answered by nil and no error, for every history.
* `C242_listed_twice_violated`: **C242** violated for the list of content encodings: a content encoding registered twice is listed twice, although one type only can be found under it.

**C243 Equality across sizes and of NaN, and damaged texts of numbers**

* `C243_equal_sizes_violated`: the same number held in two sizes is not equal to itself.
* `C243_nan_violated`: a NaN is not equal to itself, whatever its bits, in both sizes; so `Equal` is no equivalence on the values a program can hold.
* `C243_unknown_base_violated`: nothing is read and no error answered, whatever the text.
* `C243_float_error_violated`: **C243** violated for damaged texts of floating point numbers: no text is refused; a text the parser refuses overwrites the number (by zero, or by an infinity).

**C244 JSON of numbers between processors, of values that are no numbers, and the length of a codec**

* `C244_byte_order_violated`: a slice of 16-bit numbers one of which has two different bytes is written as two different texts on a little endian and on a big endian processor, so the text does not determine the numbers.
* `C244_not_numbers_violated`: **C244** violated for the values that are no numbers: NaN and plus infinity are written as texts that no JSON value starts with, and minus infinity as a sign without a digit, without an error.
* `C244_len_violated`: whatever is decoded into the object or changed in it afterwards, the codec goes on telling the length of the first state.

**C245 Missing texts of a language, and the end of the reload input**

* `C245_short_language_violated`: **C245** violated when one language has too few texts: a placeholder that one language has no text for panics, and nothing is made for any language.
* `C245_plain_file_violated`: **C245** violated for files without texts in a language of the application: the log says that the plain file is used; nothing of the file is, in developer mode for files without a localize file and in both modes for a language the localize file does not have.
* `C245_no_texts_violated`: one script without a localize file makes the whole update panic.
* `C245_reload_end_violated`: the loop does not end; every further round writes a warning at once.

**C246 Gzip decompressors refuse other contents and report failing sources**

* `C246_gzip_accepts_violated`: data handed to it is accepted without an error and never answered (see above: no answer changes), for every data, and for `UnmarshalFrom` all of it is said to remain.
* `C246_chain_gzip_error_violated`: a source that fails, when the decompressor is made and when it is read, is answered as empty contents without an error.

**C247 The documented epoch, the calendar year and the local time**

* `C247_local_epoch_violated`: it is the epoch itself, to the nanosecond, for every time.
* `C247_calendar_year_violated`: it is 0 whatever the time.
* `C247_epoch_violated`: the elapsed units are said to be counted from the first of January of the year 1, which is 719162 days before the Unix epoch, but the current time is the reading of the Unix clock.
* `C247_local_violated`: it is the epoch for every time and every zone, so no time after the first day and no zone of less than a day's difference is right.

**C248 Updating the atomic clock by a read and a store**

* `C248_read_store_violated`: **C248** violated for updates made of a read and a store: an addition of another thread between them is lost.

**C249 Cookies with empty values, cookie headers and adding cookies**

* `C249_empty_value_lost_violated`: a cookie with an empty value is not read back: the target keeps what it held.
* `C249_last_cookie_lost_violated`: the last cookie of every line is lost; a line with one cookie appears empty.
* `C249_hostile_line_panics_violated`: a line sent by a peer in which a semicolon stands before the first `=`, or which ends in a semicolon, makes the walk panic.
* `C249_addCookie_always_panics_violated`: adding cookies to a header panics for every header and every list of cookies.
* `C249_walk_panics_exactly_violated`: the walk over a `Cookie` line panics on precisely the lines in which a semicolon stands before the first `=` (and something after the `=`), and those whose first cookie has a name and is ended by a semicolon that is the last byte.

**C250 The keep alive of a stream and closing its sending side**

* `C250_durations_violated`: **C250** violated for the idle time and the interval: no call changes them, so that after setting another one the old one is still reported and used.
* `C250_close_sending_violated`: it reports success and the stream is as before, in every state.

**C251 Escaped hosts and zone identifiers can be unescaped**

* `C251_host_exact_violated`: **C251** violated for every host name or zone identifier with a byte outside of those that survive: the encoder writes a text, and the decoder refuses it with an error. Hosts survive exactly if all bytes are outside ASCII, percent signs or literal; zones exactly if all are spaces, percent signs or literal in hosts.
* `C251_host_violated`: **C251** does not extend to every string in host mode: the encoder writes escapes the decoder refuses.

**C252 A configured domain that starts with a digit**

* `C252_numeric_domain_redirects_to_itself_violated`: when the configured domain starts with a digit, a request for exactly that domain is redirected to itself (with the same path and query) and never passes.

**C253 Seconds that do not fit a nanosecond duration**

* `C253_overflow_any_violated`: **C253** violated for every duration that does not fit: the nanoseconds are the exact number reduced into the 64-bit range, so they are the exact number if and only if it fits; no error is reported.
* `C253_overflow_violated`: seconds that do not fit wrap around without an error.

**C254 Parsing RFC 4122 identifiers**

* `C254_parse_violated`: parsing has no effect: the variable keeps its value for every text, or the call panics.
* `C254_parse_canonical_violated`: parsing the text of any other identifier leaves the old one.
* `C254_parse_short_violated`: a text of fewer than 24 characters makes the parser panic.
* `C254_utility_parse_violated`: the helper parser returns the zero identifier for every text.

**C255 Texts that are no IPv4 addresses are refused**

* `C255_trailing_text_violated`: the parser reports nothing: a text with trailing rubbish gives the same address as the text without it, for every address and every rubbish that is not a digit.
* `C255_bad_text_violated`: a bad text leaves a mixture of the new octets and the old ones, with a nil error.
* `C255_bad_text_any_violated`: **C255** violated for every text with fewer than four octets before it goes wrong: the octets read so far are in the address, the others are the old ones.

**C256 A listener that uses its own event target**

* `C256_reentrant_violated`: a callback that calls the target it is called by never returns, and no call on that target ends any more: in every continuation its goroutine stays where it is and holds the lock.

**C257 The legacy Pragma header beside an empty Cache-Control line**

* `C257_empty_cache_control_violated`: **C257** violated when a Cache-Control line with an empty value comes first: a line is added although Cache-Control is given, what is read stays empty, and every further call adds one more line.

**C258 Replacing places given in another order or outside of the file**

* `C258_order_violated`: the places must be given in order. For two places given last first, the second one is moved although it lies before the first: replacing one byte by two at position 2 and then one by one at position 0 changes the byte at 1.
* `C258_outside_violated`: a place that does not lie in the file is not refused but panics: one that begins or ends before the file, or that ends so far after it that the file would not reach there even with the bytes that are added.
* `C258_order_any_violated`: C258 violated for every two places given last first: the second place is moved by what the first one added, although it lies before it. What is replaced is the place `moved` bytes further on; it is the right one only if nothing was added.

**C259 Accept header is read in order of preference**

* `C259_any_parameter_is_quality_violated`: the quality is read from the first parameter whatever its name, so a media type with a parameter of its own is ranked by that parameter and its `q` is ignored.
* `C259_non_numeric_parameter_drops_media_violated`: an element with a parameter that is no number, like a character set, is dropped: the media type is not in the list at all, though the header asks for it.
* `C259_absent_header_violated`: an absent header (empty text) gives a list of one entry whose media type is empty.

**C260 The Host line is treated as the authority of the target**

* `C260_host_line_not_parsed_violated`: the two spellings of a request are not treated the same: after the check the host of a request that names it in the Host line is still empty, so the host filter accepts every such request, for every foreign domain in the Host line.

**C261 Sending a request returns a response or an error and closes the stream**

* `C261_timeout_returns_nothing_violated`: "blocks the caller until it gets a response or an error": when the stream times out first the caller gets neither: the response is nil and so is the error.
* `C261_unsent_reported_as_sent_violated`: a request without answer that was never sent before the timeout reports success, exactly as one that was sent.
* `C261_stream_leaked_violated`: a stream that was opened but could not take the request is never closed.
* `C261_srpc_one_way_unsent_violated`: a caller whose request timed out, or whose socket was closed before the request was sent, is told the same as one whose request was sent.

**C262 Paths lead to the right file**

* `C262_nested_file_violated`: the file at `ps/f`, two or more directories deep, is found by its path. Here it is never found when the directory holds no directory with the name of the file: the look-up follows the file name as a directory.
* `C262_one_directory_violated`: `dir/f` is the file `f` of the directory `dir`. Here the directory is ignored, whatever its name, and the answer is the file `f` of the directory asked.
* `C262_slash_violated`: the path of a directory, which ends with a slash, finds that directory. Here it finds nothing unless some directory has an empty name; `Delete` recognises a directory by that very slash.

**C263 Changing the time limits of a socket**

* `C263_read_write_swapped_violated`: `SetReadTimeout` sets the time limit of reading and `SetWriteTimeout` that of writing. Here each leaves its own limit untouched and sets the other one, for every socket, clock and duration.
* `C263_extended_never_fires_violated`: after the limits are extended, a peer that stays silent is noticed at the new limit. Here, when both new limits are later than the timer, the timer stays where it was; when it runs it announces nothing, and it is not started again, so no time limit is ever announced.
* `C263_not_armed_violated`: setting a time limit arms the timer. Here, on a socket whose timer was never started, limits in the future never do.
* `C263_no_timeout_violated`: a negative duration removes the limit. Here `SetReadTimeout` of a negative duration leaves a limit in the past, and `SetWriteTimeout` of one leaves a zero that the timer takes for an expired limit: whenever the timer runs it announces an expired read.
* `C263_write_named_read_violated`: an expired write is announced as an expired write. Here, when only a limit for writing was ever stored, it is announced as an expired read, for every moment.

**C264 Methods get the code of their own type**

* `C264_receiver_name_violated`: the generator tells types apart by the receiver's name alone. When a method follows one of another type with the same receiver name (`r *Request`, then `r *Response`), it gets the code of the other type, whatever the two types are.
* `C264_order_violated`: a file in which a method stands before the declaration of its type is refused as if the type did not exist, whatever the rest of the file; Go allows any order.
* `C264_value_receiver_violated`: a method with a value receiver, encoding method or not, stops the generator with a panic.

**C265 Decompressing a codec**

* `C265_damaged_violated`: damaged contents are not noticed. Whatever part of them can be read is returned as the contents, without an error.
* `C265_not_gzip_violated`: contents that are not gzip at all are returned as empty contents, without an error.
* `C265_unmarshal_violated`: data handed to the gzip decompressor with `Unmarshal` is accepted and not used: what it then holds is what its source holds, whatever the data; a decompressor without a source panics; and the data is said to remain whole.
* `C265_gzip_write_violated`: a gzip decompressor made for a source panics when it is written to a writer, and once it has been read it writes nothing and reports success, unless its data was damaged.
* `C265_read_count_violated`: a reader that was read to its end counts as no bytes read.
* `C265_gzip_error_violated`: the gzip decompressor drops the error of its source: it answers with no bytes and no error.

**C266 Logging and recovery from panics**

* `C266_listener_violated`: a listener that panics ends all logging. Whatever is logged when it happens, the listeners behind it are not called, the panic goes on to the caller, and from then on every call that logs, and every recovery from a panic, waits for ever: no listener is ever called again.
* `C266_method_violated`: a value whose own method panics, such as a nil pointer that is a Go error, is not recovered from: the handler panics and nothing is logged.
* `C266_time_violated`: a log event of another kind that is panicked with is logged with the time of the recovery, and its own time is lost.
* `C266_nil_event_violated`: a nil event that is panicked with reaches the listeners as a nil event.

**C267 Frames through a network of switches**

* `C267_never_leaves_violated`: no frame ever leaves the switch it comes to. A switch passes a frame on by receiving it again at the port, and a port belongs to its switch: so whatever path a frame has, the first switch it comes to takes all its hops itself and accepts it as its own.
* `C267_fresh_violated`: a switch that has just been initialised panics on every frame that is to leave it by another port than the one of its own number.
* `C267_endless_violated`: a frame that says it is at a hop behind its last one is never done with. A switch of port number 3 whose ports are its own receives the frame again and again, however long it goes on.
* `C267_fresh_send_violated`: a switch that has just been initialised can send nothing but through the port of its own number: for any other it panics, and for a broadcast too, after at most one port.
* `C267_bridge_last_violated`: a bridge at the last hop drops the frame, in either direction, and reports no error: the frame is neither sent nor given to the switch.
* `C267_broadcast_violated`: a broadcast does not skip a port without a connection but panics there: it is sent, once each and in order, on the ports before the first one without a connection, and on no other.
* `C267_broadcast_endless_violated`: a broadcast of a switch all of whose ports are connected never ends: it goes on after the last port with the first one.
* `C267_short_send_violated`: a frame too short to say where it goes is not refused when it is sent: it panics.

**C268 Closing and reusing TCP streams**

* `C268_close_always_fails_violated`: no stream can be closed. For every stream that starts new, whatever its configuration, the clock and what happened to it, closing it and taking it down report that the timer was not initialised, and neither its receiving nor its sending half is ever taken down.
* `C268_reset_does_nothing_violated`: resetting a stream changes nothing of it: it is not like new unless it was so.
* `C268_init_keeps_retries_violated`: keep-alive and user timeout go on counting the retries of the former connection, so that the new one is closed after fewer unanswered probes.
* `C268_reset_alone_probes_at_once_violated`: a keep-alive that is reset and switched on again has no interval and was due at time zero: at every positive time it probes at once and asks to be called again in the past.
* `C268_timing_reset_violated`: resetting the timing of a stream leaves its delayed acknowledgment as the former connection had it, and reports that the timer was not initialised.

**C269 A new page is a program for the page that was asked for**

* `C269_hyphen_violated`: a scope with a hyphen, as the scopes of this project are written, gives a name with a space, so that the script declares nothing: it is not a JavaScript program.
* `C269_chosen_name_violated`: nor is it checked that a chosen name can be part of a JavaScript name.
* `C269_quote_violated`: the template writes the scope as it is, so that the name of the page ends at the quote and the rest of the scope is read as program text.
* `C269_reused_request_violated`: the name stays when the scope is changed, so that two pages made with one request are declared under one name.
* `C269_splash_lost_violated`: **C269** violated for a file that has the name of an earlier one: the style is a file that is already called `splash.html`; making it renames it away, and with it the page just made is lost from the directory.

**C270 A GP frame reaches the connection of its peer**

* `C270_payload_violated`: whatever stands behind or in front of the source address, and whether or not the peer has a connection, the same is done: nothing more than the lookup. So the payload reaches nobody.
* `C270_bad_type_violated`: a frame of another type is processed as if it were a GP frame, although the check of the frame refuses it.
* `C270_panic_violated`: **C270** violated for short frames, and without a table: the call panics, for every frame of fewer than 17 bytes, and for every frame as long as the package was not initialized.
* `C270_write_violated`: the header of a frame is not written by a connection, which says that it takes no byte.

**C271 TCP segments that arrive over IP reach their stream**

* `C271_new_violated`: no stream is ever made. Whatever arrives, from the start on, every segment of the right form makes the receiver panic, over IPv4 always and over IPv6 when there is a service for the port.
* `C271_grows_violated`: the table only grows. Each connection of which a segment with ports has arrived, of the right form or not, has an entry for ever, whatever arrives before and after.
* `C271_short_violated`: a segment of fewer than four bytes makes the receiver panic before anything is checked.

**C272 TCP stream: in-order bytes are delivered in order**

* `C272_following_segment_violated`: after a segment of two or more bytes, the segment that follows it in the peer's stream is put in front of the first one's last byte. The stream is taken with an empty receive buffer.
* `C272_empty_segment_violated`: a segment without data moves the expected sequence number, so that the byte the peer sends next, with the number the segment without data had, is not appended: it is inserted at offset 4294967295.
* `C272_passive_open_violated`: a stream opened by the peer is never established and never delivers anything, whatever segments arrive; it leaves the listening state exactly when a segment with the SYN flag arrives.
* `C272_initial_number_violated`: the peer's initial sequence number is not taken from its SYN. After a handshake in which the peer chose `isn`, its first data segment, numbered `isn + 1`, is not appended unless `isn + 1` happens to be the number the stream had before.
* `C272_never_closes_violated`: nothing the peer sends ends an established stream, in particular neither a FIN nor a RST segment, and a stream in one of the closing states never leaves it.

**C274 Adding a timer never blocks on itself**

* `C274_start_fails_violated`: in every reachable queue, starting a timer that is not running deadlocks whenever all earliest timers among those that were not stopped were reset, whatever stopped timers stand in front of them, and panics exactly if there are timers in the queue and all were stopped.
* `C274_start_after_all_stopped_violated`: Whenever the queue is not empty and every timer in it was stopped, starting another panics.
* `C274_start_after_reset_violated`: Whenever the first timer of the queue was reset, starting another deadlocks.
* `C274_start_violated`: Both kinds of queue are two calls away from the empty one.

**C275 The frames of a packet are processed in order, to the end**

* `C275_unknown_violated`: every packet in which the loop reaches a type without a case makes it run for ever.
* `C275_zero_length_violated`: three bytes are enough: a padding, call service or data frame with the length zero is followed, for the loop, by its own length, whose first byte is no frame type.
* `C275_error_violated`: every error frame makes the receiver panic.
* `C275_gp_violated`: a GP frame carries its type in its first byte and has 33 bytes, but the loop hands it on without the type byte and skips 33 more: the first byte of whatever follows is lost, and a GP frame that nothing follows makes the receiver panic.
* `C275_chapar_violated`: of a new Chapar frame the loop takes the hop number for the hop count, so the bytes of its path are dispatched as frames.

**C276 A limited ticker fires exactly the number of times asked for**

* `C276_limit_exceeded_violated`: However long the clock runs, the ticker made for `n` ticks fires `n + 1` times, and stops only then: the number asked for is exceeded by one.

**C277 Atomic wall clock is atomic**

* `C277_mixed_swap_violated`: after concurrent swaps the clock holds one of the times stored, and one of them got back the time that was there. Here, for all times stored by two goroutines, one schedule leaves the seconds of one with the nanoseconds of the other, and neither swap returned the time that was there first.
* `C277_failed_cas_changes_violated`: a compare-and-swap that reports failure because only the nanoseconds differ has nevertheless overwritten the seconds.
* `C277_torn_load_violated`: a `Load` between the two writes of a `Store` returns a time that was never stored, whatever the old and the new time are, as long as they differ in both parts.
* `C277_mixed_store_violated`: two concurrent `Store`s can leave the seconds of one and the nanoseconds of the other, for good.

**C278 The JSON decoder returns on every text**

* `C278_hang_violated`: C278 fails for a decoder with a remembered last item: when a number has been read before and the text ends without an end token, the list decoder never returns, for any number of rounds.
* `C278_bool_panic_violated`: an empty value, and a boolean cut off or standing at the very end, panic.
* `C278_minified_string_cut_violated`: a string that is cut off is accepted without its last byte, and the text is used up.
* `C278_string_panic_exact_violated`: reading a string, by the copying and by the sharing decoder, panics on precisely the texts with an `n` among the last three bytes and neither a quote nor a comma before it.
* `C278_null_anywhere_violated`: C278 violated for values that only contain `null`: whatever stands around the four letters before the next comma, the string decoders answer the empty string without an error and consume nothing.

**C279 Content-Type headers without, with short and with two parameters**

* `C279_absent_content_type_panics_violated`: asking a header without Content-Type for its content type panics.
* `C279_subtype_needs_semicolon_violated`: without parameters (no semicolon) the sub type is never recognised.
* `C279_short_parameter_panics_violated`: a text whose cut-off rest starts like a parameter but is too short panics.
* `C279_second_parameter_violated`: C279 violated for a second parameter, exactly: the first one is cut off, but the search for separators goes on at the place where the type ended. When the first parameter ends before that place, it swallows the second one; otherwise the first parameter is lost, and the part of it behind the length of the type is taken for the sub type.
* `C279_short_parameter_any_violated`: **C279** violated for every parameter that is too short: one that starts with `c` and has fewer than eight bytes (`charset=` has eight), or with `b` and fewer than nine (`boundary=` has nine), makes the parser panic; so does an empty one; a longer one does not.
* `C279_short_text_any_violated`: **C279** violated for every text without a semicolon that starts with `c` and is shorter than eight bytes, or with `b` and shorter than nine: the text itself is taken for the parameter, and the parser panics.

**C281 A path of Chapar that cannot be kept is refused**

* `C281_long_violated`: a path of more than 255 hops is taken without an error, and the variable then gives its first hops, as many as the length leaves modulo 256: never the path, and none at all for 256 hops.
* `C281_empty_violated`: unmarshalling no bytes leaves the path that was there.
* `C281_cut_violated`: a path that does not fit into the frame is cut off at its end, and no error says so.
* `C281_far_violated`: a frame of 253 or more hops gives no path: reading it panics, from the frame and into a variable.

**C282 The media type of a file is that of its name**

* `C282_rename_violated`: a file that is renamed keeps the media type of its old name. It has the media type of its new name exactly if both names have the same extension.

**C283 A limited ticker that is set up again stays limited**

* `C283_reinit_loses_the_limit_violated`: A ticker that was set up again and runs again has no limit: it fires as often as the clock asks for, and the remaining number never changes.

**C284 What was taken out of a buffer stays as it was, and changing it does not change the buffer**

* `C284_reset_violated`: after `Reset` the next write goes over the bytes that were taken out before: whoever still holds them reads the new bytes in front of what is left of the old ones.
* `C284_taken_back_violated`: `GrowLen` accepts a negative count and takes the last bytes back, and the next write goes over them.
* `C284_behind_violated`: a buffer started with the front of a longer slice writes over the rest of it as long as it fits: the owner of the slice finds their bytes replaced.
* `C284_store_violated`: a store into the bytes taken out shows in the buffer.

**C285 Each file has contents of its own**

* `C285_prepend_twice_violated`: the same slice put before two files goes into the room behind it both times, so the first file shows the contents of the second one behind the slice.
* `C285_copied_append_violated`: a file given the data of another file, as `g.Unmarshal(f.Marshal())` does, shares it: both append into the same room, and what was appended to the first file is replaced by what is appended to the second.
* `C285_replace_seen_violated`: `ReplaceLocation` of a piece by one of the same length writes into the array, so another file that was given this file's data shows the change too, and so does everybody who holds what `Marshal` answered.
* `C285_store_violated`: a store into the slice given to `Unmarshal`, or into the slice `Marshal` answered, changes the file.

**C286 A text decoded from bytes, or written into a packet, does not change when the bytes are reused**

* `C286_key_violated`: a key decoded with `DecodeKey` is the bytes of the buffer: when the buffer is used for the next document `q`, the key shows what stands in `q` at its place.
* `C286_min_key_violated`: the same for the decoder of minified text.
* `C286_unsafe_value_violated`: a string value decoded with the unsafe decoders is the bytes of the buffer: it is what the safe decoder would answer, and when the buffer is used for the next document `q`, it shows what stands in `q` at its place.
* `C286_file_address_violated`: the path and the name of a file address decoded with `Unmarshal` are the bytes given: when the slice is used again for `q`, they show what stands in `q` at their places.
* `C286_uri_reused_violated`: a URI decoded with `Unmarshal` or `UnmarshalFrom` keeps the packet: when the packet is used again for `q`, `URI()` shows the beginning of `q`, and the scheme, authority, path, query and fragment show what stands in `q` at their places.
* `C286_marshal_shared_violated`: `Marshal` of a decoded URI answers the packet it was decoded from: a store into the answer changes what `URI()` shows.
* `C286_written_violated`: a URI with no text of its own that is written into a packet keeps that part of the packet as its text: when the packet is used again for `q`, `URI()` shows what stands there in `q`.

**C287 What is decoded comes from the message alone**

* `C287_behind_violated`: when the fields reach behind the message and the buffer goes on, the getter does not panic, as the byte models have it for a buffer that ends with the message, but answers what stands behind the message: for every `q` in that place the answer ends with `q`.
* `C287_append_violated`: what a getter answers has the rest of the buffer as its room, so appending to it goes over the message behind the part, for instance over the next frame.
* `C287_strings_violated`: a string of an array whose fields reach behind the message is given with what stands there, by the copying `GetStringArray` as well: for every `q` in that place.
* `C287_null_violated`: a document that ends inside the word `null`, in a buffer that goes on, is said to hold null exactly when what stands behind the document completes the word.

**C288 A very long timeout is a late deadline**

* `C288_long_limit_violated`: a limit so far ahead that its moment cannot be written counts as one in the distant past. `SetReadTimeout` (and `SetWriteTimeout`) of such a duration, often meant as "no limit", takes the running timer away from the limit it waits for to the last moment of the clock: no limit of either direction, however near, is announced before that.
* `C288_long_named_read_violated`: after a limit for writing that is too far ahead was given through `SetWriteTimeout`, every timer that runs, whatever limit it was for, announces an expired read.

**C289 One connection per peer path**

* `C289_new_each_time_violated`: each frame of a peer, however many come by the same path, makes and registers a new connection: the connection is registered with the whole frame as its path, so it is never found by the path.
* `C289_mixed_violated`: a frame whose path reads as the bytes of an earlier frame is taken to the connection of that frame, whoever sent it.
* `C289_way_back_violated`: the way back of a new connection is the whole frame backwards, payload and header with it, and zeros after it: whatever is sent on the connection goes first to the port that the last payload byte of the frame received names, so the sender of a frame chooses where answers go, and every answer carries that payload.
* `C289_long_frame_panic_violated`: a valid frame of 256 or 257 bytes that arrives at its last hop by a path that is not known ends in a panic: its length is cut to one byte, and reversing a path of length zero or one runs out of the path.

**C290 Registries used by several goroutines**

* `C290_compress_meets_violated`: a registration of a compress type and a lookup of another goroutine. The lookup ends the program exactly when it comes while the registration is inside its write of the table that is read, the `k`-th, which it is after `2 * k + 1` steps; there is such a moment for each of the four tables.
* `C290_media_meets_violated`: the same for media types. The third write is only made for a type with a file extension.
* `C290_error_meets_violated`: the same for errors, registered or removed. In development mode `Register` first looks the identifier up, one step more.
* `C290_service_meets_violated`: the same for services: `Register` looks each key up before it writes it, `Delete` does not.
* `C290_register_meets_violated`: a registration of a service is ended already by its look at a table another goroutine is inside a removal from: at its first step if that is the table by identifier; at its fourth, after it wrote that one, if it is the table by media type.
* `C290_crash_violated`: a registration of a new error and any call of another goroutine that touches the table by identifier, even a lookup, can meet so that the runtime ends the program: nothing locks the tables.
* `C290_duplicate_violated`: two goroutines that register two errors with one identifier can both be told that it was free, also without the program being ended; the later one replaces the earlier.
* `C290_indexes_violated`: a registration and a removal of one error that overlap can leave it findable by its media type and not by its identifier, for ever.
* `C290_type_crash_violated`: two registrations of media types always can meet so that the runtime ends the program, and so can a registration and a lookup by media type.
* `C290_encoding_lost_violated`: of two compress types registered by two goroutines, both without an error and without the program being ended, the content encoding of the first can be missing for ever from the list that `ContentEncodings` answers, although the lookup by content encoding finds it.

**C291 A timing wheel whose callbacks add timers**

* `C291_lost_violated`: a tick runs every timer of its slot. Two timers `a` and `b` are in the last slot of the wheel, and the callback of `a` adds two timers that wait one slot less than a turn. They are written over the timers the tick has still to run: `b` is not run, is in no slot any more and so never runs again, and `d`, just added, runs at once in its place.
* `C291_endless_violated`: a tick ends. A timer shorter than one interval runs when it is added, so that a callback that adds its own timer again never returns: no number of callbacks inside callbacks is enough.

**C292 The time a cookie expires survives being sent as text**

* `C292_far_violated`: a time of expiry after the year 9999 or before the year 0 is set without an error, and read back as the zero time, so that the cookie looks as if it had expired long ago.

**C293 The text of an identifier names one service, and no text brings the server down**

* `C293_request_panic_violated`: a request brings the multiplexer down exactly when it is a POST whose query begins, line breaks aside, with twelve characters of the alphabet of identifiers: it panics instead of answering, whatever services are registered.
* `C293_handler_panic_violated`: the same for the whole handler: a request to the path of the multiplexer that passes the host check panics.
* `C293_any_query_violated`: queries that are no text of an identifier run the service registered with the identifier 0.
* `C293_panic_violated`: reading the text of an identifier panics exactly when the text begins, line breaks aside, with twelve characters of the alphabet, whatever follows them.
* `C293_bad_text_violated`: every other text is read as the identifier 0, and no error is reported.
* `C293_second_text_violated`: the text of an identifier is not the only one: for every identifier there are three other texts of eleven characters of the alphabet that are read as the same identifier.

**C294 Only whole numbers of JSON are read as whole numbers**

* `C294_not_json_violated`: digits after any number of needless zeros, and after a plus sign, are read as numbers by the minified decoder, and those after zeros also by the ordinary one. None of these texts is a whole number of JSON.
* `C294_other_member_violated`: a value that is no number is not refused by the ordinary decoder: whatever stands there, and whatever members follow it, the next digits anywhere in the document are read as its value.
* `C294_space_violated`: a number with white space between it and the end token is refused by both decoders, so that the last number of an object that is written on several lines is never read.
* `C294_stale_violated`: in a text that is cut off, without an end token, both decoders answer the number that was read last, whatever the text is.

**C295 Base64 in JSON: one text for one value, and one item does not show in another**

* `C295_line_break_violated`: a line break anywhere in the text, which JSON does not allow in a string, changes nothing: both decoders read the same value or report the same error, and so a value has any number of texts.
* `C295_second_text_violated`: the text the encoder writes is not the only one of its length: when one byte is over after groups of three there are fifteen other texts of the alphabet that are read as the same value, when two are over there are three.
* `C295_leak_violated`: an item of a list with line breaks among its 43 characters is accepted with fewer than 32 bytes, and the others are those of the item before it: from the second byte behind those that were read on, the two values agree.

**C296 Ports taken away from a switch carry no more frames**

* `C296_still_used_violated`: a port that was taken away is used as before: a frame whose next hop is this port goes out through its connection, and one that a switch hands on by this port reaches the switch behind it, whatever the switch, the port and the frame.
* `C296_still_delivers_violated`: a frame with hops left that comes in after the port was taken away is still delivered to the switch behind it.
* `C296_emptied_violated`: putting an empty port in its place instead makes the next frame for that number panic.

**C297 Texts of GP addresses and Chapar paths can be read back**

* `C297_path_violated`: reading the text of a path does nothing and reports no error: whatever path is written and whatever path is to take the text, the one that was there stays.
* `C297_gp_violated`: reading the text of an address of the GP network does nothing and reports no error: the address that was there stays. The text is the sixteen bytes themselves.

**C298 Bytes handed over are taken, handed back, or an error is reported**

* `C298_json_violated`: `UnmarshalFrom` of the codec of JSON loses what it is given: the object is not filled, nothing is handed back and no error is reported, whatever the object and its reader are; so the account of the bytes is settled by no use of a codec that is as it was.
* `C298_socket_violated`: so does `UnmarshalFrom` of a socket: nothing is sent, nothing is handed back and no error is reported.
* `C298_copy_violated`: copying stops without an error although bytes are left: a socket of the standard library and a buffer take nothing from a reader that has something to give, and a buffer gives nothing to a writer although it has unread bytes; all say that the copy went well.

**C300 A timing wheel started twice can be stopped**

* `C300_started_twice_violated`: a wheel started twice cannot be stopped: if two goroutines wait for the next tick, a call of `Stop` is told that it stopped the wheel, and then, as soon as the goroutine it reached has closed the channel, the next step of the other one panics, in every schedule in which it comes to make one.
* `C300_panics_violated`: started twice and stopped once, the wheel panics.

**C301 A listener that panics does not take its event target with it**

* `C301_uncomparable_violated`: a listener whose type cannot be compared cannot be removed: removing it panics whenever it, or any listener of the same type, is registered, and does nothing otherwise.
* `C301_stuck_violated`: for every history and every schedule of goroutines, once a listener or the comparison of a listener panics in a call, no call on the target by anyone proceeds any more, although the panic is recovered from: nothing is registered, removed or called in any continuation.

**C302 The functions a user gives to a pool may fail or use the pool**

* `C302_new_violated`: a `New` that panics uses up a place of the pool for good: on an empty pool with room for `room` more items, `room` calls of `Get` whose `New` panics leave a pool that has created nothing, and from then on every `Get` returns nothing, although `New` would work again.
* `C302_close_violated`: when `CloseFunc` panics or asks the pool for its length for one of the idle items, `Close` does not return: the items behind it are never cleaned up, the pool never counts as stopped by it, and in every later history `Len` hangs, a `Get` returns nothing or, where a refused `Init` made the pool count as running again, hangs, as a `Put` does then, and no `Close` succeeds.

**C303 Idle items are cleaned up within two windows**

* `C303_hot_violated`: the item kept aside (the first one put back while none is) is never cleaned up: as long as nobody calls `Get` it stays in the pool through any number of rounds, and through `Close` too.

**C304 Sets of weekdays, hours and half hours**

* `C304_all_equal_violated`: a set that holds every named value is never equal to the value named `All`, whichever way it was joined, because `All` has bits that name nothing.

**C305 Parts of a URN**

* `C305_parts_violated`: after any calls of `Init`, the last with a URN, neither the namespace nor the name reported is that of the URN; both are empty.

**C306 Options of event listeners and cancelled events**

* `C306_once_violated`: a listener that asks to be called once is called by every dispatch, whatever was done before, for ever: after any history, of `n` dispatches each calls it. As documented only the first does.
* `C306_twice_violated`: a callback that is added again, with the same capture, is called again by each dispatch. As documented the second addition does nothing.
* `C306_remove_violated`: a removal does not look at the options: of a callback registered with and without capture it takes out the one that was added first, also when the other one was named.

**C307 What calls on a timer answer**

* `C307_stop_violated`: `Stop` does not report whether the timer was stopped before it ran: of an armed timer, also the second `Stop`, which finds nothing to stop, answers what the first did.
* `C307_reset_violated`: `Reset` does not report whether the timer was changed before it ran: it answers without an error for armed, stopped, run and new timers alike. And for a ticker that is armed it changes not just the interval, as documented, but also the deadline of the next tick: it becomes `d` from now.

**C308 The errors that packages declare are told apart and found**

* `C308_told_apart_violated`: `ErrUnsupportedMediaType`, `UnsupportedTransferEncoding` and `ErrBadHost` of net/http/errors are three variables, and any two of them are equal, whatever the hash: who is refused because of the host, and asks what happened, is told that the media type is not supported.
* `C308_found_violated`: of the three HTTP errors, in whatever order they and the others are initialised, one is found and the other two never: no text and no identifier finds them.
* `C308_space_violated`: the media types of `ErrInvalidURLEscape` and `ErrInvalidHostEscape` of net/uri/errors end with a space. Who asks for one of them without the space, as all others are written, is told that there is no such error, whatever was initialised.

**C309 What the receive buffer of a TCP stream refuses is not lost without notice**

* `C309_pushed_violated`: when the buffer refuses the payload of a pushed segment, `Receive` answers no error, counts the segment as received, and asks the application to process bytes that are not there.
* `C309_again_violated`: a refused segment is acknowledged all the same, before the buffer is asked: when the peer sends it again, as it does for what was not received, `Receive` does not append it, though there be room by then: it is inserted 4294967295 places behind.
* `C309_gaps_violated`: whatever segments the peer sends one after the other, numbered as the code counts, a buffer with room for `n` bytes leaves out every payload that does not fit and takes later ones that do, so the bytes of the stream no longer follow one another; and of the pushed segments every one is answered without an error.

**C310 Searching header lines from an index**

* `C310_ambiguous_violated`: a header whose first line has the name with an empty value, and a header without that name, get the same answer.
* `C310_blank_violated`: a header just initialised has sixteen blank lines, so a search for the empty name finds one at each of the first sixteen indexes, though nothing was added.
* `C310_negative_violated`: every search from a negative index ends in a panic, with whatever lines, none included.

**C311 A file over its history of changes, and reset to what is stored**

* `C311_unread_violated`: after a reset the file reads as stored, but its length is zero, and writing it out or adding it to other bytes gives nothing.
* `C311_lost_after_reset_violated`: what is put before or behind the content of a file that is as stored is not in the content, nor is it saved to the file, whatever follows but a new content.
* `C311_compress_violated`: a file keeps its content when it is compressed and saved. For a file that is as stored, whatever is stored, what is saved is the compressed form of no bytes at all.

**C312 Web content served from the directory of the operating system**

* `C312_stored_violated`: a stored file is sent with its content. Whatever the disk has, a file of which the content is not in memory, as every file that is reset (`C311_reset`), is sent as a body without a length and without bytes.
* `C312_missing_violated`: a path without a file is answered with the main page. Whatever page there is, the handler panics: what `FileByPath` answers is never the nil interface.
* `C312_main_page_unused_violated`: the main page is shown for some path. It makes no difference which page that is, in any directory and for any path.
* `C312_every_request_violated`: some request for web content is answered. After every history of calls on the root directory and whatever the operating system has, the handler panics for every path, when it serves the root directory and when it serves the directory that it asks the root for.
* `C312_init_violated`: the web content can be made ready. After every history of calls on the root directory and whatever the operating system has, the initialisation panics.

**C313 The host check for requests as they are read**

* `C313_every_host_violated`: only requests for the configured domain are served. Whatever bytes were read as the target of a request, however often the request was used before, and whatever Host line it has, the host check of every domain lets it pass: it is neither refused nor redirected.
* `C313_foreign_served_violated`: a request in absolute form for another host is not served. It is served as one for the configured domain, by the service of its path, although its host was read.

**C314 Paths and names do not lead out of a directory**

* `C314_made_beside_violated`: a directory asked for by name is made in the directory it is asked of. Asked for two dots, a slash and any name, every directory has one made beside itself, unless it knows the text as the name of a directory.
* `C314_made_above_violated`: a directory asked for by name is another one than those above it. Asked for two dots, every directory has its own parent made, unless it knows the text as the name of a directory.

**C315 Following the redirects of the host check**

* `C315_line_breaks_violated`: the Location line of a redirect is one line. Every path with a line break in it, and with no space and none of the signs that end a path, is read from the bytes of a target as it is; and for every request with such a path that is redirected the line break is in the Location line.

**C316 Checked cookies come back as they were set**

* `C316_path_injected_violated`: a cookie that passes the check is read as it was set. Every legal value followed by two semicolons, `Path=` and any legal text passes the check, and a client reads the shorter value and a path that was never set.
* `C316_reader_panics_violated`: a cookie that passes the check can be read. Every legal value followed by two semicolons and `HttpOnly` passes the check, and the client that reads the cookie panics, whatever it held.

**C317 Path segments and query values put into a URI arrive**

* `C317_query_stays_violated`: a request without query values arrives without them. Read by a URI that was used before and not set back, it has the query of the request before it.
* `C317_colon_violated`: the target of a request arrives whatever bytes its segments have. With a colon in any segment, whatever the query, reading panics or finds a scheme that was not written.

## What is modelled and what is not

For each Go file of the repository with functions (tests excluded): the functions cited by a
definition of the model, then those that are not modelled. A function listed as modelled may be
modelled in part; the comment of its definition says so. Not listed: packages in which nothing is
modelled; they are named at the end.

### achaemenid (7 of 23)

* `application.go`: app.Init, app.Reinit, app.Deinit, app.OsSignalHandler. *Not modelled:* app.Engine, app.Manifest, app.SoftwareStatus, app.Upgrade
* `cryptography.go`: cryptography.init. *Not modelled:* cryptography.Deinit
* `media-types.go`: *Not modelled:* init, domain_.Init, domain_.Status, domain_.ReferenceURI, domain_.IssueDate, domain_.ExpiryDate, domain_.ExpireInFavorOf
* `status.go`: status.NotifyStatus, status.changeState. *Not modelled:* status.Status, status.Init, status.Reinit, status.Deinit

### achaemenid/errors (7 of 71)

* `bad_request.go`: errBadRequest.Init
* `bad_request.locale.eng.go`: *Not modelled:* errBadRequest.Domain, errBadRequest.Summary, errBadRequest.Overview, errBadRequest.UserNote, errBadRequest.DevNote, errBadRequest.TAGS, errBadRequest.Name, errBadRequest.Abbreviation, errBadRequest.Aliases
* `bad_response.go`: errBadResponse.Init
* `bad_response.locale.eng.go`: *Not modelled:* errBadResponse.Domain, errBadResponse.Summary, errBadResponse.Overview, errBadResponse.UserNote, errBadResponse.DevNote, errBadResponse.TAGS, errBadResponse.Name, errBadResponse.Abbreviation, errBadResponse.Aliases
* `guest_connection_max_reached.go`: errGuestConnectionMaxReached.Init
* `guest_connection_max_reached.locale.eng.go`: *Not modelled:* errGuestConnectionMaxReached.Domain, errGuestConnectionMaxReached.Summary, errGuestConnectionMaxReached.Overview, errGuestConnectionMaxReached.UserNote, errGuestConnectionMaxReached.DevNote, errGuestConnectionMaxReached.TAGS, errGuestConnectionMaxReached.Name, errGuestConnectionMaxReached.Abbreviation, errGuestConnectionMaxReached.Aliases
* `guest_connection_not_allow.go`: errGuestConnectionNotAllow.Init
* `guest_connection_not_allow.locale.eng.go`: *Not modelled:* errGuestConnectionNotAllow.Domain, errGuestConnectionNotAllow.Summary, errGuestConnectionNotAllow.Overview, errGuestConnectionNotAllow.UserNote, errGuestConnectionNotAllow.DevNote, errGuestConnectionNotAllow.TAGS, errGuestConnectionNotAllow.Name, errGuestConnectionNotAllow.Abbreviation, errGuestConnectionNotAllow.Aliases
* `init.go`: *Not modelled:* init
* `internal_error.go`: errInternalError.Init
* `internal_error.locale.eng.go`: *Not modelled:* errInternalError.Domain, errInternalError.Summary, errInternalError.Overview, errInternalError.UserNote, errInternalError.DevNote, errInternalError.TAGS, errInternalError.Name, errInternalError.Abbreviation, errInternalError.Aliases
* `not_standard_id.go`: errNotStandardID.Init
* `not_standard_id.locale.eng.go`: *Not modelled:* errNotStandardID.Domain, errNotStandardID.Summary, errNotStandardID.Overview, errNotStandardID.UserNote, errNotStandardID.DevNote, errNotStandardID.TAGS, errNotStandardID.Name, errNotStandardID.Abbreviation, errNotStandardID.Aliases
* `protocol_handler.go`: errProtocolHandler.Init
* `protocol_handler.locale.eng.go`: *Not modelled:* errProtocolHandler.Domain, errProtocolHandler.Summary, errProtocolHandler.Overview, errProtocolHandler.UserNote, errProtocolHandler.DevNote, errProtocolHandler.TAGS, errProtocolHandler.Name, errProtocolHandler.Abbreviation, errProtocolHandler.Aliases

### adt/queue (11 of 12)

* `queue-codec.go`: Queue.Decode, Queue.Encode, Queue.Unmarshal, Queue.SerializationLength. *Not modelled:* Queue.Marshal
* `queue.go`: Queue.Init, Queue.Reinit, Queue.Deinit, Queue.Full, Queue.Read, Queue.Write, Queue.WriteIn

### binary (32 of 32)

* `be-in-be-cpu.go`: BigEndian.Uint16, BigEndian.Uint32, BigEndian.Uint64, BigEndian.PutUint16, BigEndian.PutUint32, BigEndian.PutUint64, init
* `be-in-le-cpu.go`: BigEndian.Uint16, BigEndian.Uint32, BigEndian.Uint64, BigEndian.PutUint16, BigEndian.PutUint32, BigEndian.PutUint64, init
* `binary.go`: Bool, Uint8, PutBool, PutUint8
* `le-in-be-cpu.go`: LittleEndian.Uint16, LittleEndian.Uint32, LittleEndian.Uint64, LittleEndian.PutUint16, LittleEndian.PutUint32, LittleEndian.PutUint64, init
* `le-in-le-cpu.go`: LittleEndian.Uint16, LittleEndian.Uint32, LittleEndian.Uint64, LittleEndian.PutUint16, LittleEndian.PutUint32, LittleEndian.PutUint64, init

### buffer (17 of 20)

* `flat.go`: Flat.Init, Flat.Reset, Flat.Bytes, Flat.String, Flat.Read, Flat.ReadByte, Flat.ReadAt, Flat.Set, Flat.Write, Flat.WriteString, Flat.WriteByte, Flat.Cap, Flat.LenOfUnread, Flat.Grow, Flat.GrowLen, Flat.WriteTo, Flat.ReadFrom. *Not modelled:* Flat.Len, Flat.Close, makeSlice

### compress-types (5 of 12)

* `compress-types.go`: compressTypes.Register, compressTypes.GetByID, compressTypes.GetByMediaType, compressTypes.GetByFileExtension, compressTypes.GetByContentEncoding. *Not modelled:* Register, GetByID, GetByMediaType, GetByFileExtension, GetByContentEncoding, ContentEncodings, compressTypes.ContentEncodings

### compress-types/errors (1 of 11)

* `init.go`: *Not modelled:* init
* `not_found.go`: errNotFound.Init
* `not_found.locale.eng.go`: *Not modelled:* errNotFound.Domain, errNotFound.Summary, errNotFound.Overview, errNotFound.UserNote, errNotFound.DevNote, errNotFound.TAGS, errNotFound.Name, errNotFound.Abbreviation, errNotFound.Aliases

### compress/errors (1 of 11)

* `init.go`: *Not modelled:* init
* `source_not_changeable.go`: errSourceNotChangeable.Init
* `source_not_changeable.locale.eng.go`: *Not modelled:* errSourceNotChangeable.Domain, errSourceNotChangeable.Summary, errSourceNotChangeable.Overview, errSourceNotChangeable.UserNote, errSourceNotChangeable.DevNote, errSourceNotChangeable.TAGS, errSourceNotChangeable.Name, errSourceNotChangeable.Abbreviation, errSourceNotChangeable.Aliases

### compress/flate (30 of 55)

* `compressor.go`: Compressor.Init, Compressor.EncodeAll, Compressor.MediaType, Compressor.CompressType, Compressor.Decode, Compressor.Encode, Compressor.Marshal, Compressor.MarshalTo, Compressor.Unmarshal, Compressor.UnmarshalFrom, Compressor.Len, Compressor.ReadFrom, Compressor.WriteTo
* `decompressor.go`: Decompressor.Init, Decompressor.decompressAll, Decompressor.MediaType, Decompressor.CompressType, Decompressor.Decode, Decompressor.Encode, Decompressor.Marshal, Decompressor.MarshalTo, Decompressor.Unmarshal, Decompressor.UnmarshalFrom, Decompressor.Len, Decompressor.ReadFrom, Decompressor.WriteTo
* `deflate.go`: deflate.Init, deflate.Compress, deflate.Decompress. *Not modelled:* deflate.Status, deflate.ReferenceURI, deflate.IssueDate, deflate.ExpiryDate, deflate.ExpireInFavorOf, deflate.FileExtension, deflate.ContentEncoding
* `init.go`: init
* `locale.eng.go`: *Not modelled:* deflate.Domain, deflate.Summary, deflate.Overview, deflate.UserNote, deflate.DevNote, deflate.TAGS, deflate.Name, deflate.Abbreviation, deflate.Aliases
* `locale.per.go`: *Not modelled:* deflate.Domain, deflate.Summary, deflate.Overview, deflate.UserNote, deflate.DevNote, deflate.TAGS, deflate.Name, deflate.Abbreviation, deflate.Aliases

### compress/gzip (30 of 38)

* `compressor.go`: Compressor.Init, Compressor.EncodeAll, Compressor.MediaType, Compressor.CompressType, Compressor.Decode, Compressor.Encode, Compressor.Marshal, Compressor.MarshalTo, Compressor.Unmarshal, Compressor.UnmarshalFrom, Compressor.Len, Compressor.ReadFrom, Compressor.WriteTo
* `decompressor.go`: Decompressor.Init, Decompressor.decompressAll, Decompressor.MediaType, Decompressor.CompressType, Decompressor.Decode, Decompressor.Encode, Decompressor.Marshal, Decompressor.MarshalTo, Decompressor.Unmarshal, Decompressor.UnmarshalFrom, Decompressor.Len, Decompressor.ReadFrom, Decompressor.WriteTo. *Not modelled:* Decompressor.Discard
* `gzip.go`: gzip.Init, gzip.Compress, gzip.Decompress. *Not modelled:* gzip.Status, gzip.ReferenceURI, gzip.IssueDate, gzip.ExpiryDate, gzip.ExpireInFavorOf, gzip.FileExtension, gzip.ContentEncoding
* `init.go`: init

### convert (32 of 32)

* `array-slice-unsafe.go`: Unsafe16ByteArraySliceToByteSlice, UnsafeByteSliceTo16ByteArraySlice, Unsafe32ByteArraySliceToByteSlice, UnsafeByteSliceTo32ByteArraySlice
* `bool-slice-unsafe.go`: UnsafeBoolSliceToByteSlice, UnsafeByteSliceToBoolSlice
* `complex-slice-unsafe.go`: UnsafeComplex64SliceToByteSlice, UnsafeByteSliceToComplex64Slice, UnsafeComplex128SliceToByteSlice, UnsafeByteSliceToComplex128Slice
* `float-slice-unsafe.go`: UnsafeFloat32SliceToByteSlice, UnsafeByteSliceToFloat32Slice, UnsafeFloat64SliceToByteSlice, UnsafeByteSliceToFloat64Slice
* `integer-slice-unsafe.go`: UnsafeUInt8SliceToByteSlice, UnsafeByteSliceToUInt8Slice, UnsafeUInt16SliceToByteSlice, UnsafeByteSliceToUInt16Slice, UnsafeUInt32SliceToByteSlice, UnsafeByteSliceToUInt32Slice, UnsafeUInt64SliceToByteSlice, UnsafeByteSliceToUInt64Slice
* `signed-integer-slice-unsafe.go`: UnsafeInt8SliceToByteSlice, UnsafeByteSliceToInt8Slice, UnsafeInt16SliceToByteSlice, UnsafeByteSliceToInt16Slice, UnsafeInt32SliceToByteSlice, UnsafeByteSliceToInt32Slice, UnsafeInt64SliceToByteSlice, UnsafeByteSliceToInt64Slice
* `string-unsafe.go`: UnsafeStringToByteSlice, UnsafeByteSliceToString

### cpu (2 of 2)

* `core.go`: CoreID.Active, activeCoreID

### crypto (9 of 9)

* `aes-256.go`: NewAES256, aes256.Encrypt, aes256.Decrypt
* `ccm.go`: NewCCM, ccm.Encrypt, ccm.Decrypt
* `gcm.go`: NewGCM, gcm.Encrypt, gcm.Decrypt

### error (9 of 10)

* `chain-error.go`: PastChain, NewChain, ChainError.PastChain
* `error-type.go`: IsInternal, IsTemporary, IsTimeout
* `error.go`: IsEqual
* `util.go`: ToGoError, ToError. *Not modelled:* errorString.Error

### errors (9 of 49)

* `error-duplicate_identifier.go`: errDuplicateIdentifier.Init
* `error-not_exist.go`: errNotExist.Init
* `error-not_exist.locale.eng.go`: *Not modelled:* errNotExist.Domain, errNotExist.Summary, errNotExist.Overview, errNotExist.UserNote, errNotExist.DevNote, errNotExist.TAGS, errNotExist.Name, errNotExist.Abbreviation, errNotExist.Aliases
* `error-not_exist.locale.per.go`: *Not modelled:* errNotExist.Domain, errNotExist.Summary, errNotExist.Overview, errNotExist.UserNote, errNotExist.DevNote, errNotExist.TAGS, errNotExist.Name, errNotExist.Abbreviation, errNotExist.Aliases
* `error-not_found.go`: errNotFound.Init
* `error-not_found.locale.eng.go`: *Not modelled:* errNotFound.Domain, errNotFound.Summary, errNotFound.Overview, errNotFound.UserNote, errNotFound.DevNote, errNotFound.TAGS, errNotFound.Name, errNotFound.Abbreviation, errNotFound.Aliases
* `error-not_found.locale.per.go`: *Not modelled:* errNotFound.Domain, errNotFound.Summary, errNotFound.Overview, errNotFound.UserNote, errNotFound.DevNote, errNotFound.TAGS, errNotFound.Name, errNotFound.Abbreviation, errNotFound.Aliases
* `error-not_provide_identifier.go`: errNotProvideIdentifier.Init
* `errors.go`: errors_.Register, errors_.UnRegister, errors_.GetByID, errors_.GetByMediaType. *Not modelled:* Register, UnRegister, GetByID, GetByMediaType
* `init.go`: init

### event (9 of 11)

* `event.go`: Event.Init, Event.Time, Event.Cancelable, Event.DefaultPrevented, Event.PreventDefault. *Not modelled:* Event.Domain, Event.Bubbles
* `target.go`: EventTarget.Init, EventTarget.DispatchEvent, EventTarget.AddEventListener, EventTarget.RemoveEventListener

### file (15 of 24)

* `file.go`: FindByRelativeFrom, AddHashToFileName, Compress, ReplaceLocation. *Not modelled:* Minify
* `uri.go`: URI.Init, URI.URI, URI.NameWithoutExtension, URI.IsDirectory, URI.Rename, URI.Marshal, URI.MarshalTo, URI.Unmarshal, Extension, FilePathParts, IsPathDirectory. *Not modelled:* URI.Scheme, URI.Domain, URI.Path, URI.Name, URI.Extension, URI.PathParts, URI.MediaType, URI.CompressType

### go/parser (4 of 5)

* `package.go`: Package.Init, Package.Parse, Package.parseFile, Package.parseType. *Not modelled:* Package.AddFile

### gui (8 of 24)

* `information.go`: *Not modelled:* Information.Language, Information.Name, Information.ShortName, Information.Tagline, Information.Slogan, Information.Description, Information.Tags
* `initialize.go`: Application.Initialize
* `navigator.go`: Navigator.HomePage, Navigator.ActivePage, Navigator.Pages, Navigator.ActivatePage. *Not modelled:* Navigator.SwitcherPage
* `page.go`: *Not modelled:* Page.Robots, Page.Icon, Page.Info, Page.RelatedPages, Page.Path, Page.AcceptedCondition, Page.ActiveState, Page.ActiveStates
* `pages.go`: Pages.RegisterPage, Pages.GetPageByPath, Pages.Pages

### identifier/32byte (15 of 20)

* `generated.go`: Generated.NewHashString. *Not modelled:* Generated.ID, Generated.IDasString
* `uuid.go`: UUID.IDasString, UUID.ToString, UUID.FromString, UUID.ExistenceTime, UUID.New, UUID.NewHash, UUID.NewHashString, UUID.NewRandom, UUID.id, UUID.secondElapsed, UUID.nanoSecondElapsed, UUID.setSecondElapsed, UUID.setNanoInSecondElapsed, IDfromString. *Not modelled:* UUID.UUID, UUID.ID, unsafeStringToByteSlice

### identifier/8byte (10 of 12)

* `uuid.go`: UUID.IDasString, UUID.ExistenceTime, UUID.ToString, UUID.FromString, UUID.New, UUID.NewHash, UUID.NewRandom, UUID.id, UUID.secondElapsed, UUID.setSecondElapsed. *Not modelled:* UUID.UUID, UUID.ID

### identifier/rfc-4122 (14 of 15)

* `utility.go`: Equal, ToString, FromString
* `uuid.go`: V1, V4, V5, UUID.Equal, UUID.FromString, UUID.String, UUID.URI, encodeHex, UUID.FirstUint64, UUID.LastUint64, UUID.FirstUint32. *Not modelled:* UUID.ToString

### identifier/uuid-time-16byte (11 of 14)

* `uuid.go`: UUID.ExistenceUnixTime, UUID.ToString, UUID.FromString, UUID.New, UUID.NewHash, UUID.NewRandom, UUID.id, UUID.secondElapsed, UUID.nanoSecondElapsed, UUID.setSecondElapsed, UUID.setNanoInSecondElapsed. *Not modelled:* UUID.UUID, UUID.ID, UUID.ExistenceTime

### json (84 of 108)

* `codec-runtime.go`: Marshal, Unmarshal. *Not modelled:* NewRunTimeCodec
* `codec.go`: NewCodec, Codec.Init, Codec.Decode, Codec.Encode, Codec.Len, Codec.Unmarshal, Codec.UnmarshalFrom, Codec.Marshal, Codec.MarshalTo, Codec.ReadFrom, Codec.WriteTo. *Not modelled:* Codec.Reinit, Codec.Deinit, Codec.MediaType, Codec.CompressType
* `decode-minified-unsafe.go`: DecoderUnsafeMinified.DecodeString
* `decode-minified.go`: DecoderMinified.DecodeKey, DecoderMinified.DecodeBool, DecoderMinified.DecodeUInt8, DecoderMinified.DecodeUInt16, DecoderMinified.DecodeUInt32, DecoderMinified.DecodeUInt64, DecoderUnsafe.DecodeInt32, DecoderMinified.DecodeInt64, DecoderMinified.DecodeFloat64AsNumber, DecoderMinified.DecodeString, DecoderMinified.DecodeByteArrayAsBase64, DecoderMinified.DecodeByteArrayAsNumber, DecoderMinified.DecodeByteSliceAsNumber, DecoderMinified.DecodeUInt16SliceAsNumber, DecoderMinified.DecodeUInt32SliceAsNumber, DecoderMinified.DecodeUInt64SliceAsNumber, DecoderMinified.DecodeByteSliceAsBase64, DecoderMinified.Decode32ByteArraySliceAsBase64
* `decode-unsafe.go`: DecoderUnsafe.DecodeString
* `decode.go`: Decoder.Init, Decoder.Offset, Decoder.FindEndToken, Decoder.TrimToDigit, Decoder.TrimSpaces, Decoder.TrimToStringStart, Decoder.CheckNullValue, Decoder.ResetToken, Decoder.CheckToken, Decoder.DecodeKey, Decoder.NotFoundKey, Decoder.End, Decoder.DecodeBool, Decoder.DecodeUInt8, Decoder.DecodeUInt16, Decoder.DecodeUInt32, Decoder.DecodeUInt64, Decoder.DecodeInt64, Decoder.DecodeFloat64AsNumber, Decoder.DecodeString, Decoder.DecodeByteArrayAsBase64, Decoder.DecodeByteArrayAsNumber, Decoder.DecodeByteSliceAsNumber, Decoder.DecodeUInt16SliceAsNumber, Decoder.DecodeUInt32SliceAsNumber, Decoder.DecodeUInt64SliceAsNumber, Decoder.DecodeByteSliceAsBase64, Decoder.Decode32ByteArraySliceAsBase64. *Not modelled:* Decoder.Reinit, Decoder.Deinit, Decoder.NotFoundKeyStrict
* `encode.go`: Encoder.AddTrailingComma, Encoder.RemoveTrailingComma, Encoder.EncodeByte, Encoder.EncodeBoolean, Encoder.EncodeUInt8, Encoder.EncodeUInt16, Encoder.EncodeUInt32, Encoder.EncodeUInt64, Encoder.EncodeInt64, Encoder.EncodeFloat32, Encoder.EncodeFloat64, Encoder.EncodeString, Encoder.EncodeKey, Encoder.EncodeStringValue, Encoder.EncodeByteSliceAsNumber, Encoder.EncodeUInt16SliceAsNumber, Encoder.EncodeUInt32SliceAsNumber, Encoder.EncodeUInt64SliceAsNumber, Encoder.EncodeByteSliceAsBase64, Encoder.EncodeUInt16SliceAsBase64, Encoder.EncodeUInt32SliceAsBase64, Encoder.Encode32ByteArraySliceAsBase64. *Not modelled:* Encoder.Init, Encoder.Reinit, Encoder.Deinit, Encoder.Buf
* `errors.go`: init
* `locale.eng.go`: *Not modelled:* init, init
* `locale.per.go`: *Not modelled:* init
* `media-types.go`: *Not modelled:* init, mediaType.FileExtension, mediaType.Status, mediaType.ReferenceURI, mediaType.IssueDate, mediaType.ExpiryDate, mediaType.ExpireInFavorOf, mediaType.Fields, mediaType.Methods

### language (5 of 8)

* `string.go`: Compress, UnCompress, Validate, ValidateDeep, DecodeCompressCharecter. *Not modelled:* EncodeToUTF8, DecodeFromUTF8, DetectScripts

### log (23 of 32)

* `event-helpers.go`: NewEvent, NoticeEvent, ErrorEvent, DebugEvent, DeepDebugEvent, InfoEvent, WarnEvent, FatalEvent, ConfEvent
* `event-utf8.go`: Event_UTF8.Init
* `event.go`: Event.Init. *Not modelled:* Event.LogLevel, Event.LogMessage, Event.RuntimeStack
* `log-helpers.go`: Trace, Info, Notice, Error, Debug, DeepDebug, Warn, Fatal, Conf
* `media-types.go`: *Not modelled:* domainType.MediaType, domainType.Status, domainType.ReferenceURI, domainType.IssueDate, domainType.ExpiryDate, domainType.ExpireInFavorOf
* `panic_handler.go`: PanicHandler
* `util.go`: CallerInfo, FatalError

### math/boolean (3 of 3)

* `boolean.go`: Boolean.Equal, Boolean.ToString, Boolean.FromString

### math/errors (1 of 1)

* `errors.go`: init

### math/float (6 of 8)

* `float-32.go`: F32.Equal, F32.ToString, F32.FromString. *Not modelled:* F32.bitSize
* `float-64.go`: F64.Equal, F64.ToString, F64.FromString. *Not modelled:* F64.bitSize

### math/integer (29 of 35)

* `signed-64.go`: S64.Equal, S64.ToString, S64.FromString. *Not modelled:* S64.bitSize
* `signed-8.go`: S8.Equal, S8.ToString, S8.FromString. *Not modelled:* S8.bitSize
* `signed.go`: Signed.Equal, Signed.ToString, Signed.FromString
* `unsigned-16.go`: U16.Equal, U16.ToString, U16.FromString, U16.FromString_UnknownBase, U16.FromString_Base10. *Not modelled:* U16.bitSize
* `unsigned-32.go`: U32.Equal, U32.ToString, U32.FromString, U32.FromString_UnknownBase, U32.FromString_Base10. *Not modelled:* U32.bitSize
* `unsigned-64.go`: U64.Equal, U64.ToString, U64.FromString, U64.FromString_UnknownBase, U64.FromString_Base10. *Not modelled:* U64.bitSize
* `unsigned-8.go`: U8.Equal, U8.ToString, U8.FromString, U8.FromString_UnknownBase, U8.FromString_Base10. *Not modelled:* U8.bitSize

### math/per (9 of 9)

* `billion.go`: Billion.Calculate
* `cent-mille.go`: CentMille.Calculate
* `cent.go`: Cent.Calculate
* `mille.go`: Mille.Calculate
* `million.go`: Million.Calculate
* `myriad.go`: Myriad.Calculate
* `quadrillion.go`: Quadrillion.Calculate
* `ten.go`: Ten.Calculate
* `trillion.go`: Trillion.Calculate

### mediatype (5 of 11)

* `media-type.go`: MediaType.Init, MediaType.MediaType, MediaType.ToString, MediaType.FromString, MediaType.parse. *Not modelled:* MediaType.MainType, MediaType.Tree, MediaType.SubType, MediaType.Suffix, MediaType.Parameters, MediaType.FileExtension

### mediatypes (4 of 8)

* `media-types.go`: mediaTypes.Register, mediaTypes.GetByMediaType, mediaTypes.GetByID, mediaTypes.GetByFileExtension. *Not modelled:* Register, ByMediaType, ByID, ByFileExtension

### minify (5 of 6)

* `css.go`: css.Minify, css.MinifyBytes
* `html.go`: html.Minify, html.MinifyBytes
* `minify.go`: Minify. *Not modelled:* init

### modules/gui/services/new-page (1 of 1)

* `logic.go`: MakeNewPage

### modules/gui/services/splash-screen (1 of 1)

* `service-make-splash-screen.go`: MakeSplashFiles

### net (28 of 55)

* `connection-status.go`: Status.SetStatus. *Not modelled:* Status.Status, Status.State
* `frame.go`: *Not modelled:* frame.FrameType, frame.Payload
* `frames.go`: HandleFrames
* `packet-listener.go`: *Not modelled:* PacketListener.Init, PacketListener.Reinit, PacketListener.Deinit, PacketListener.NetworkPacketHandler
* `packet-target.go`: *Not modelled:* PacketTarget.Init, PacketTarget.Reinit, PacketTarget.Deinit, PacketTarget.AddPacketListener, PacketTarget.RemovePacketListener
* `socket-buffer.go`: *Not modelled:* buf.Init, buf.Reinit, buf.Deinit
* `socket-codec.go`: Socket.Decode, Socket.Encode, Socket.Marshal, Socket.MarshalTo, Socket.Unmarshal, Socket.UnmarshalFrom, Socket.blockInSelect, Socket.sendPayload. *Not modelled:* Socket.MediaType, Socket.CompressType, Socket.Len
* `socket-timing.go`: Socket.initTimeout, Socket.reinitTimeout, Socket.TimerHandler, Socket.SetTimeout, Socket.SetReadTimeout, Socket.SetWriteTimeout, Socket.setReadTimeout, Socket.setWriteTimeout. *Not modelled:* Socket.deinitTimeout
* `socket.go`: Socket.Init, Socket.Reinit, Socket.Revoke, Socket.Check. *Not modelled:* Socket.Deinit, Socket.Weight, Socket.Close, Socket.ScheduleProcessingSocket
* `stream-codec.go`: Socket.Decode, Socket.Encode, Socket.Marshal, Socket.MarshalTo, Socket.Unmarshal, Socket.UnmarshalFrom. *Not modelled:* Socket.MediaType, Socket.CompressType, Socket.Len

### net/chapar (45 of 77)

* `connection.go`: Connection.Init, Connection.WriteFrame, Connection.Send, Connection.ReSend, Connection.setAlternativePath, Connection.changePath. *Not modelled:* Connection.Reinit, Connection.Deinit, Connection.FrameType, Connection.LocalAddr, Connection.RemoteAddr, Connection.ActivePaths, Connection.AlternativePaths, Connection.newConnection, Connection.establishByPath, Connection.establishByThingID
* `errors.go`: init
* `frame.go`: Frame.Init, Frame.FrameType, Frame.HopCount, Frame.NextHop, Frame.NextPortNum, Frame.PortNum, Frame.Path, Frame.SetFrameType, Frame.SetHopCount, Frame.SetPortNum, Frame.SetPath, Frame.CheckFrame, Frame.IsBroadcastFrame, Frame.IncrementNextHop, Frame.StaticFrameLen, Frame.FrameLen, Frame.NextFrame. *Not modelled:* Frame.Reinit, Frame.Deinit, Frame.Process, Frame.Do
* `locale.eng.go`: *Not modelled:* init
* `locale.per.go`: *Not modelled:* init
* `mux.go`: Multiplexer.Init, Multiplexer.Send, Multiplexer.sendBroadcast, Multiplexer.Receive, Multiplexer.registerPort, Multiplexer.unRegisterPort, Multiplexer.removePort. *Not modelled:* Multiplexer.FrameType, Multiplexer.Deinit, Multiplexer.getPort
* `path.go`: Path.Init, Path.Set, Path.Get, Path.CopyReverseTo, Path.ToString, Path.FromString, Path.Decode, Path.Encode, Path.Unmarshal, Path.MarshalTo. *Not modelled:* Path.LenAsByte, Path.MediaType, Path.CompressType, Path.Len, Path.Marshal
* `port-bridge.go`: BridgePort.Send, BridgePort.Receive. *Not modelled:* BridgePort.Init, BridgePort.Reinit, BridgePort.Deinit, BridgePort.Name, BridgePort.Abbreviation, BridgePort.Aliases
* `port.go`: port.Send, port.Receive. *Not modelled:* port.Init, port.PortNumber

### net/errors (5 of 60)

* `guest_max_reached.go`: errGuestMaxReached.Init
* `guest_max_reached.locale.eng.go`: *Not modelled:* errGuestMaxReached.Domain, errGuestMaxReached.Summary, errGuestMaxReached.Overview, errGuestMaxReached.UserNote, errGuestMaxReached.DevNote, errGuestMaxReached.TAGS, errGuestMaxReached.Name, errGuestMaxReached.Abbreviation, errGuestMaxReached.Aliases
* `guest_not_allow.go`: errGuestNotAllow.Init
* `guest_not_allow.locale.eng.go`: *Not modelled:* errGuestNotAllow.Domain, errGuestNotAllow.Summary, errGuestNotAllow.Overview, errGuestNotAllow.UserNote, errGuestNotAllow.DevNote, errGuestNotAllow.TAGS, errGuestNotAllow.Name, errGuestNotAllow.Abbreviation, errGuestNotAllow.Aliases
* `init.go`: *Not modelled:* init
* `no_connection.go`: errNoConnection.Init
* `no_connection.locale.eng.go`: *Not modelled:* errNoConnection.Domain, errNoConnection.Summary, errNoConnection.Overview, errNoConnection.UserNote, errNoConnection.DevNote, errNoConnection.TAGS, errNoConnection.Name, errNoConnection.Abbreviation, errNoConnection.Aliases
* `no_connection.locale.per.go`: *Not modelled:* errNoConnection.Domain, errNoConnection.Summary, errNoConnection.Overview, errNoConnection.UserNote, errNoConnection.DevNote, errNoConnection.TAGS, errNoConnection.Name, errNoConnection.Abbreviation, errNoConnection.Aliases
* `protocol_handler.go`: errProtocolHandler.Init
* `protocol_handler.locale.eng.go`: *Not modelled:* errProtocolHandler.Domain, errProtocolHandler.Summary, errProtocolHandler.Overview, errProtocolHandler.UserNote, errProtocolHandler.DevNote, errProtocolHandler.TAGS, errProtocolHandler.Name, errProtocolHandler.Abbreviation, errProtocolHandler.Aliases
* `send_request.go`: errSendRequest.Init
* `send_request.locale.eng.go`: *Not modelled:* errSendRequest.Domain, errSendRequest.Summary, errSendRequest.Overview, errSendRequest.UserNote, errSendRequest.DevNote, errSendRequest.TAGS, errSendRequest.Name, errSendRequest.Abbreviation, errSendRequest.Aliases

### net/gp (25 of 40)

* `address.go`: Addr.PlanetID, Addr.SocietyID, Addr.RouterID, Addr.UserID, Addr.AppID, Addr.SetPlanetID, Addr.SetSocietyID, Addr.SetRouterID, Addr.SetUserID, Addr.SetAppID, Addr.ToString, Addr.FromString
* `connection.go`: Connection.Init, Connection.WriteFrame. *Not modelled:* Connection.Reinit, Connection.Deinit, Connection.FrameType, Connection.LocalAddr, Connection.RemoteAddr
* `errors.go`: init
* `frame.go`: Frame.CheckFrame, Frame.FrameType, Frame.DestinationAddr, Frame.SourceAddr, Frame.SetFrameType, Frame.SetDestinationAddr, Frame.SetSourceAddr, Frame.NextFrame, Frame.Process. *Not modelled:* Frame.FrameLen, Frame.Do
* `init.go`: Init
* `locale.eng.go`: *Not modelled:* init
* `locale.per.go`: *Not modelled:* init
* `media-types.go`: *Not modelled:* init, mediaType.Status, mediaType.ReferenceURI, mediaType.IssueDate, mediaType.ExpiryDate, mediaType.ExpireInFavorOf

### net/http (83 of 114)

* `body.go`: body.Init, body.Reinit, body.Deinit, body.Body, body.SetBody, body.Len, body.MediaType, body.CompressType, body.Decode, body.Encode, body.Marshal, body.MarshalTo, body.Unmarshal, body.UnmarshalFrom
* `const.go`: GetStatusText
* `header-accept.go`: insertMime, sortMimes
* `header-content-encoding.go`: Header.ContentEncoding, Header.AddContentEncoding, ContentEncodings.Last
* `header-content-length.go`: Header.ContentLength, Header.AddContentLength, Header.AddZeroContentLength, Request.AddContentLength, Response.AddContentLength
* `header-content-type.go`: Header.ContentType, Header.AddContentType, ContentType.FromString
* `header-cookie.go`: Header.Cookies, Header.AddCookies, Header.AddCookie, Cookies.Next, Cookie.CheckAndSanitize, Cookie.Marshal, Cookie.Unmarshal, Cookie.UnmarshalFrom, sanitizeCookieName, sanitizeCookieValue
* `header-pragma.go`: Header.FixPragmaCacheControl
* `header-set-cookie.go`: Header.AddSetCookie, SetCookies.Next, SetCookie.CheckAndSanitize, SetCookie.GetExpire, SetCookie.SetExpire, SetCookie.GetMaxAge, SetCookie.SetMaxAge, SetCookie.GetSameSite, SetCookie.SetSameSite, SetCookie.Marshal, SetCookie.Unmarshal, sanitizeCookiePath, sanitizeCookieDomain. *Not modelled:* Header.SetCookies
* `header-transfer-encoding.go`: Header.TransferEncoding, Header.AddTransferEncoding, TransferEncodings.Last
* `header.go`: Header.Init, Header.Reinit, Header.Deinit, Header.Header_Get, Header.Header_Add, Header.Header_Set, Header.Header_Del, Header.Exclude, Header.Header_Find. *Not modelled:* Header.Header_All
* `locale.eng.go`: *Not modelled:* init
* `media-types.go`: *Not modelled:* init, mediaType.FileExtension, mediaType.Status, mediaType.ReferenceURI, mediaType.IssueDate, mediaType.ExpiryDate, mediaType.ExpireInFavorOf, mediaTypeRequest.FileExtension, mediaTypeRequest.Status, mediaTypeRequest.ReferenceURI, mediaTypeRequest.IssueDate, mediaTypeRequest.ExpiryDate, mediaTypeRequest.ExpireInFavorOf, mediaTypeResponse.FileExtension, mediaTypeResponse.Status, mediaTypeResponse.ReferenceURI, mediaTypeResponse.IssueDate, mediaTypeResponse.ExpiryDate, mediaTypeResponse.ExpireInFavorOf
* `request-pseudo_header.go`: PseudoHeader_Request.Init, PseudoHeader_Request.Reinit, PseudoHeader_Request.SetMethod, PseudoHeader_Request.SetVersion. *Not modelled:* PseudoHeader_Request.Deinit, PseudoHeader_Request.Method, PseudoHeader_Request.URI, PseudoHeader_Request.Version
* `request.go`: Request.Init, Request.Reinit, Request.Deinit, Request.CheckHost
* `response-pseudo_header.go`: PseudoHeader_Response.Reinit, PseudoHeader_Response.SetVersion, PseudoHeader_Response.SetStatus. *Not modelled:* PseudoHeader_Response.Init, PseudoHeader_Response.Deinit, PseudoHeader_Response.Version, PseudoHeader_Response.StatusCode, PseudoHeader_Response.ReasonPhrase
* `response.go`: Response.Init, Response.Reinit, Response.Deinit, Response.GetStatusCode, Response.GetError, Response.SetError, Response.Redirect, Response.SetStatusByError

### net/http/errors (1 of 3)

* `init.go`: init
* `locale.eng.go`: *Not modelled:* init
* `locale.per.go`: *Not modelled:* init

### net/http/services (3 of 54)

* `host-supported.go`: hostSupportedService.ServeHTTP. *Not modelled:* hostSupportedService.Init, hostSupportedService.Reinit, hostSupportedService.Deinit, hostSupportedService.FileExtension, hostSupportedService.Status, hostSupportedService.ReferenceURI, hostSupportedService.IssueDate, hostSupportedService.ExpiryDate, hostSupportedService.ExpireInFavorOf, hostSupportedService.Fields, hostSupportedService.Methods, hostSupportedService.URI, hostSupportedService.Priority, hostSupportedService.Weight, hostSupportedService.CRUDType, hostSupportedService.UserType, hostSupportedService.doHTTP
* `locale.eng.go`: *Not modelled:* init, init
* `locale.per.go`: *Not modelled:* init
* `serve-www.go`: serveWWWService.ServeHTTP. *Not modelled:* serveWWWService.Init, serveWWWService.Reinit, serveWWWService.Deinit, serveWWWService.FileExtension, serveWWWService.Status, serveWWWService.ReferenceURI, serveWWWService.IssueDate, serveWWWService.ExpiryDate, serveWWWService.ExpireInFavorOf, serveWWWService.Fields, serveWWWService.Methods, serveWWWService.URI, serveWWWService.Priority, serveWWWService.Weight, serveWWWService.CRUDType, serveWWWService.UserType
* `service-mux.go`: muxService.ServeHTTP. *Not modelled:* muxService.Init, muxService.FileExtension, muxService.Status, muxService.ReferenceURI, muxService.IssueDate, muxService.ExpiryDate, muxService.ExpireInFavorOf, muxService.Fields, muxService.Methods, muxService.URI, muxService.Priority, muxService.Weight, muxService.CRUDType, muxService.UserType, muxService.doHTTP

### net/http/v1 (5 of 5)

* `handler.go`: V1.HandleIncomeRequest, V1.ServeHTTP, V1.HandleOutcomeResponse, SendBidirectionalRequest, SendUnidirectionalRequest

### net/ipv4 (55 of 57)

* `addr.go`: Addr.ToString, Addr.FromString, ubtoa, dtoi
* `errors.go`: init
* `locale.eng.go`: *Not modelled:* init
* `locale.per.go`: *Not modelled:* init
* `packet.go`: Packet.CheckPacket, Packet.Version, Packet.IHL, Packet.DSCP, Packet.TotalLength, Packet.Identification, Packet.FragmentOffset, Packet.TimeToLive, Packet.Protocol, Packet.HeaderChecksum, Packet.SourceAddr, Packet.DestinationAddr, Packet.Options, Packet.Payload, Packet.SetVersion, Packet.SetIHL, Packet.SetDSCP, Packet.SetTotalLength, Packet.SetIdentification, Packet.SetFragmentOffset, Packet.SetTimeToLive, Packet.SetProtocol, Packet.SetHeaderChecksum, Packet.SetSourceAddr, Packet.SetDestinationAddr, Packet.SetOptions, Packet.SetPayload, Packet.FlagECT, Packet.FlagECT0, Packet.FlagECT1, Packet.FlagCE, Packet.FlagReserved, Packet.FlagDF, Packet.FlagMF, Packet.SetFlagECT, Packet.SetFlagECT0, Packet.SetFlagECT1, Packet.SetFlagCE, Packet.SetFlagReserved, Packet.SetFlagDF, Packet.SetFlagMF, Packet.UnsetFlagECT, Packet.UnsetFlagECT0, Packet.UnsetFlagECT1, Packet.UnsetFlagCE, Packet.UnsetFlagReserved, Packet.UnsetFlagDF, Packet.UnsetFlagMF
* `tcp.go`: ReceiveOverIPv4, newSocketOverIPv4

### net/ipv6 (40 of 42)

* `addr.go`: Addr.IsUnspecified, Addr.IsLoopback, Addr.IsMulticast, Addr.IsInterfaceLocalMulticast, Addr.IsLinkLocalMulticast, Addr.IsLinkLocalUnicast, Addr.IsGlobalUnicast, Addr.FromIPv4, Addr.ToString, Addr.FromString, xtoi
* `errors.go`: init
* `extension-routing.go`: extensionRouting.NextHeader, extensionRouting.Length, extensionRouting.RoutingType, extensionRouting.SegmentsLeft, extensionRouting.TypeSpecificData, extensionRouting.Optional, extensionRouting.NextFrame
* `locale.eng.go`: *Not modelled:* init
* `locale.per.go`: *Not modelled:* init
* `packet.go`: Packet.CheckPacket, Packet.Version, Packet.TrafficClass, Packet.FlowLabel, Packet.PayloadLength, Packet.NextHeader, Packet.HopLimit, Packet.SourceAddr, Packet.DestinationAddr, Packet.Payload, Packet.SetVersion, Packet.SetTrafficClass, Packet.SetFlowLabel, Packet.SetPayloadLength, Packet.SetNextHeader, Packet.SetHopLimit, Packet.SetSourceAddr, Packet.SetDestinationAddr, Packet.SetPayload
* `tcp.go`: ReceiveTCPOverIPv6, newSocketOverIPv6

### net/l4 (7 of 10)

* `frame-data.go`: DataFrame.Length, DataFrame.StreamID, DataFrame.Offset, DataFrame.Payload, DataFrame.NextFrame, DataFrame.Process, DataFrame.addDataToStream. *Not modelled:* DataFrame.Do, handleDataFrame
* `frame-resend-broken-packet.go`: *Not modelled:* ReSendBrokenPacket

### net/metric (15 of 41)

* `connection.go`: Metric.StreamSucceed, Metric.StreamFailed, Metric.PacketReceived, Metric.DuplicatePacketReceived, Metric.PacketSent, Metric.PacketResend. *Not modelled:* Metric.LastUsage, Metric.MaxBandwidth, Metric.BytesSent, Metric.PacketsSent, Metric.BytesReceived, Metric.PacketsReceived, Metric.LostPackets, Metric.LostBytes, Metric.ResendPackets, Metric.ResendBytes, Metric.FailedPacketsSent, Metric.FailedPacketsReceived, Metric.NotRequestedPacketsReceived, Metric.SucceedStreamCount, Metric.FailedStreamCount
* `connections-metric.go`: ConnectionsMetric.ConnOpened, ConnectionsMetric.GuestConnOpened, ConnectionsMetric.ConnIdled, ConnectionsMetric.ConnWaited, ConnectionsMetric.ConnClosed, ConnectionsMetric.GuestConnClosed, ConnectionsMetric.IdleConnClosed, ConnectionsMetric.WaitConnClosed, ConnectionsMetric.LifetimeConnClosed. *Not modelled:* ConnectionsMetric.LastUsage, ConnectionsMetric.OpenCount, ConnectionsMetric.GuestCount, ConnectionsMetric.InUseCount, ConnectionsMetric.IdleCount, ConnectionsMetric.WaitCount, ConnectionsMetric.ClosedCount, ConnectionsMetric.GuestClosedCount, ConnectionsMetric.IdleClosedCount, ConnectionsMetric.WaitClosedCount, ConnectionsMetric.LifetimeClosedCount

### net/sec (5 of 7)

* `frame-padding.go`: PaddingFrame.Length, PaddingFrame.Payload, PaddingFrame.NextFrame
* `frame-signature.go`: SignatureFrame.ID, SignatureFrame.NextFrame. *Not modelled:* SignatureFrame.Do, checkSignature

### net/srpc (22 of 25)

* `frame-call-service.go`: ServiceFrame.Length, ServiceFrame.ServiceID, ServiceFrame.CompressID, ServiceFrame.Time, ServiceFrame.Payload, ServiceFrame.NextFrame. *Not modelled:* ServiceFrame.Do
* `frame-close-stream.go`: *Not modelled:* CloseStream
* `frame-data-signature.go`: DataSignatureFrame.ID, DataSignatureFrame.NextFrame. *Not modelled:* DataSignatureFrame.Do
* `frame-error.go`: ErrorFrame.StreamID, ErrorFrame.ErrorID, ErrorFrame.NextFrame, ErrorFrame.Do
* `frame-open-stream.go`: OpenStreamFrame.HandlerID, OpenStreamFrame.ServiceID, OpenStreamFrame.CompressID, OpenStreamFrame.DataLength, OpenStreamFrame.Weight, OpenStreamFrame.NextFrame, OpenStreamFrame.Do
* `handler.go`: Handler.HandleIncomeRequest, SendBidirectionalRequest, SendUnidirectionalRequest

### net/std (17 of 20)

* `io.go`: Socket.ReadFrom, Socket.WriteTo
* `net.go`: Socket.Read, Socket.Write, Socket.Close, Socket.LocalAddr, Socket.RemoteAddr, Socket.SetDeadline, Socket.SetReadDeadline, Socket.SetWriteDeadline, Socket.CloseRead, Socket.CloseWrite, Socket.SetLinger, Socket.SetKeepAlive, Socket.SetKeepAlivePeriod, Socket.SetNoDelay, untilTo
* `socket.go`: *Not modelled:* Socket.Init, Socket.Reinit, Socket.Deinit

### net/tcp (172 of 199)

* `locale.eng.go`: *Not modelled:* init
* `locale.per.go`: *Not modelled:* init
* `option-alt-checksum-data.go`: optionAltChecksumData.Length, optionAltChecksumData.AltChecksumData, optionAltChecksumData.NextOption, optionAltChecksumData.Process
* `option-alt-checksum.go`: optionAltChecksum.Length, optionAltChecksum.AltChecksum, optionAltChecksum.NextOption, optionAltChecksum.Process
* `option-cc.go`: optionCC.Length, optionCC.CC, optionCC.NextOption, optionCC.Process
* `option-ccecho.go`: optionCCEcho.Length, optionCCEcho.CCEcho, optionCCEcho.NextOption, optionCCEcho.Process
* `option-ccnew.go`: optionCCNew.Length, optionCCNew.CCNew, optionCCNew.NextOption, optionCCNew.Process
* `option-echo-reply.go`: optionEchoReply.Length, optionEchoReply.EchoReply, optionEchoReply.NextOption, optionEchoReply.Process
* `option-echo.go`: optionEcho.Length, optionEcho.Echo, optionEcho.NextOption, optionEcho.Process
* `option-mss.go`: optionMSS.Length, optionMSS.MSS, optionMSS.NextOption, optionMSS.Process
* `option-partial-order-connection-permitted.go`: optionPartialOrderConnectionPermitted.Length, optionPartialOrderConnectionPermitted.NextOption. *Not modelled:* optionPartialOrderConnectionPermitted.Process
* `option-partial-order-service-profile.go`: optionPartialOrderServiceProfile.Length, optionPartialOrderServiceProfile.PartialOrderServiceProfile, optionPartialOrderServiceProfile.NextOption, optionPartialOrderServiceProfile.Process
* `option-stack-permited.go`: optionSACKPermitted.Length, optionSACKPermitted.NextOption. *Not modelled:* optionSACKPermitted.Process
* `option-timestamps.go`: optionTimestamps.Length, optionTimestamps.Timestamps, optionTimestamps.NextOption, optionTimestamps.Process
* `option-window-scale.go`: optionWindowScale.Length, optionWindowScale.WindowScale, optionWindowScale.NextOption, optionWindowScale.Process
* `option.go`: *Not modelled:* Options.Kind, Options.Payload
* `port.go`: port.Init, port.Reinit, port.Deinit. *Not modelled:* port.SourcePort, port.DestinationPort
* `segment.go`: Segment.CheckSegment, Segment.SourcePort, Segment.DestinationPort, Segment.SequenceNumber, Segment.AckNumber, Segment.DataOffset, Segment.Window, Segment.Checksum, Segment.UrgentPointer, Segment.Options, Segment.Payload, Segment.SetSourcePort, Segment.SetDestinationPort, Segment.SetSequenceNumber, Segment.SetAckNumber, Segment.SetDataOffset, Segment.SetFlagPartOne, Segment.SetFlagPartTwo, Segment.SetWindow, Segment.SetChecksum, Segment.SetUrgentPointer, Segment.SetOptions, Segment.SetPayload, Segment.FlagReserved1, Segment.FlagReserved2, Segment.FlagReserved3, Segment.FlagNS, Segment.FlagCWR, Segment.FlagECE, Segment.FlagURG, Segment.FlagACK, Segment.FlagPSH, Segment.FlagRST, Segment.FlagSYN, Segment.FlagFIN, Segment.SetFlagReserved1, Segment.SetFlagReserved2, Segment.SetFlagReserved3, Segment.SetFlagNS, Segment.SetFlagCWR, Segment.SetFlagECE, Segment.SetFlagURG, Segment.SetFlagACK, Segment.SetFlagPSH, Segment.SetFlagRST, Segment.SetFlagSYN, Segment.SetFlagFIN, Segment.UnsetFlagReserved1, Segment.UnsetFlagReserved2, Segment.UnsetFlagReserved3, Segment.UnsetFlagNS, Segment.UnsetFlagCWR, Segment.UnsetFlagECE, Segment.UnsetFlagURG, Segment.UnsetFlagACK, Segment.UnsetFlagPSH, Segment.UnsetFlagRST, Segment.UnsetFlagSYN, Segment.UnsetFlagFIN
* `stream-firewall.go`: *Not modelled:* Stream.checkPushFlag
* `stream-internal-syn-ack.go`: synAck.Init, synAck.Reinit, synAck.ReachMaxSynACK, synAck.ReceiveNewSynAck. *Not modelled:* synAck.Deinit
* `stream-internal-syn.go`: syn.Init, syn.Reinit, syn.ReachMaxSyn, syn.SendNewSyn. *Not modelled:* init, syn.Deinit
* `stream-internal.go`: Stream.incomeSegmentOnListenState, Stream.incomeSegmentOnSynSentState, Stream.incomeSegmentOnSynReceivedState, Stream.incomeSegmentOnEstablishedState, Stream.incomeSegmentOnFinWait1State, Stream.incomeSegmentOnFinWait2State, Stream.incomeSegmentOnCloseState, Stream.incomeSegmentOnCloseWaitState, Stream.incomeSegmentOnClosingState, Stream.incomeSegmentOnLastAckState, Stream.incomeSegmentOnTimeWaitState, Stream.handleOptions, Stream.close, Stream.sendACK, Stream.validateSequence, Stream.needReset. *Not modelled:* Stream.checkStream, Stream.checkSegmentFlags, Stream.reset, Stream.sendSYN, Stream.sendQuickACK, Stream.sendRST, Stream.sendFIN, Stream.validateSequenceTemp
* `stream-metrics.go`: *Not modelled:* StreamMetrics.Init, StreamMetrics.Reinit, StreamMetrics.Deinit
* `stream-recv.go`: recv.Init, recv.Reinit, recv.Deinit
* `stream-send.go`: send.Init, send.Reinit, send.Deinit
* `stream-status.go`: status.Init, status.Load, status.Store, status.CompareAndSwap, status.notify
* `stream-timing-delayed_acknowledgment.go`: delayedAcknowledgment.Init, delayedAcknowledgment.Reinit, delayedAcknowledgment.CheckInterval, delayedAcknowledgment.next. *Not modelled:* delayedAcknowledgment.Deinit, delayedAcknowledgment.Enabled
* `stream-timing-keep_alive.go`: timingKeepAlive.Init, timingKeepAlive.Reinit, timingKeepAlive.Enable, timingKeepAlive.Idle, timingKeepAlive.Interval, timingKeepAlive.SetEnable, timingKeepAlive.SetIdle, timingKeepAlive.SetInterval, timingKeepAlive.CheckInterval. *Not modelled:* timingKeepAlive.Deinit
* `stream-timing-user_timeout.go`: timingUserTimeout.Init, timingUserTimeout.Reinit, timingUserTimeout.CheckInterval. *Not modelled:* timingUserTimeout.Deinit
* `stream-timing.go`: timing.Init, timing.Reinit, timing.Deinit, timing.TimerHandler
* `stream.go`: Stream.Init, Stream.Reinit, Stream.Deinit, Stream.Reset, Stream.Open, Stream.CloseSending, Stream.Receive

### net/tcp/errors (1 of 1)

* `errors.go`: init

### net/udp (11 of 11)

* `packet.go`: Packet.CheckPacket, Packet.SourcePort, Packet.DestinationPort, Packet.Length, Packet.Checksum, Packet.Payload, Packet.SetSourcePort, Packet.SetDestinationPort, Packet.SetLength, Packet.SetChecksum, Packet.SetPayload

### net/udp/errors (2 of 21)

* `init.go`: *Not modelled:* init
* `packet_too_short.go`: errPacketTooShort.Init
* `packet_too_short.locale.eng.go`: *Not modelled:* errPacketTooShort.Domain, errPacketTooShort.Summary, errPacketTooShort.Overview, errPacketTooShort.UserNote, errPacketTooShort.DevNote, errPacketTooShort.TAGS, errPacketTooShort.Name, errPacketTooShort.Abbreviation, errPacketTooShort.Aliases
* `packet_wrong_length.go`: errPacketWrongLength.Init
* `packet_wrong_length.locale.eng.go`: *Not modelled:* errPacketWrongLength.Domain, errPacketWrongLength.Summary, errPacketWrongLength.Overview, errPacketWrongLength.UserNote, errPacketWrongLength.DevNote, errPacketWrongLength.TAGS, errPacketWrongLength.Name, errPacketWrongLength.Abbreviation, errPacketWrongLength.Aliases

### net/uri (40 of 75)

* `escape.go`: Escape, Unescape, shouldEscape, ishex, unhex
* `media-types.go`: *Not modelled:* init, mediaType.FileExtension, mediaType.Status, mediaType.ReferenceURI, mediaType.IssueDate, mediaType.ExpiryDate, mediaType.ExpireInFavorOf, mediaType.Fields, mediaType.Methods
* `uri-authority.go`: Authority.Init, Authority.Reinit. *Not modelled:* Authority.Deinit, Authority.Authority, Authority.Host, Authority.Port, Authority.SetAuthority, Authority.SetHost, Authority.SetPort
* `uri-query.go`: Query.Init, Query.Get, Query.Set, Query.Add, Query.Del, Query.Has, Query.FromString, Query.ToString. *Not modelled:* Query.Sort
* `uri-user_Information.go`: UserInformation.Init, UserInformation.Reinit, UserInformation.SetUserinfo, UserInformation.SetUsername, UserInformation.SetPassword. *Not modelled:* UserInformation.Deinit, UserInformation.Userinfo, UserInformation.Username, UserInformation.Password
* `uri.go`: URI.Reinit, URI.Deinit, URI.Set, URI.IsAbs, URI.Len, URI.Decode, URI.Encode, URI.Marshal, URI.MarshalTo, URI.Unmarshal, URI.UnmarshalFrom, URI.WriteTo, URI.marshalTo, URI.UnmarshalFromString, URI.len. *Not modelled:* URI.Init, URI.URI, URI.Scheme, URI.Path, URI.Query, URI.Fragment, URI.SetURI, URI.SetScheme, URI.SetPath, URI.SetQuery, URI.SetFragment, URI.ParseQuery, URI.MediaType, URI.CompressType
* `urn.go`: URN.Init, URN.URI, URN.Scheme, URN.NID, URN.NSS

### net/uri/errors (1 of 4)

* `errors.go`: init
* `locale.eng.go`: *Not modelled:* init, init
* `locale.per.go`: *Not modelled:* init

### operation/command (23 of 32)

* `cla.go`: FromCLA, ToCLA
* `command.go`: Command.SubCommand. *Not modelled:* Command.Init, Command.Runnable, Command.Parent, Command.SubCommands, Command.ServeCLI
* `flag.go`: FlagSet.Init, FlagSet.Reinit, FlagSet.Parse, FlagSet.NFlag, FlagSet.NArg, FlagSet.Args, FlagSet.Arg, FlagSet.VisitAll, FlagSet.Visit, FlagSet.Lookup, FlagSet.Set, FlagSet.checkFields, FlagSet.parseOne, FlagSet.checkAndSet. *Not modelled:* FlagSet.Deinit
* `path.go`: ShortPath, RelPaths, IsTestFile. *Not modelled:* init, Cwd, ED
* `serve.go`: ServeCLA, Root, CommandPath

### operation/command/errors (6 of 34)

* `flag_bad_syntax.go`: errFlagBadSyntax.Init
* `flag_needs_an_arguments.go`: errFlagNeedsAnArgument.Init
* `flag_not_found.go`: errFlagNotFound.Init
* `init.go`: *Not modelled:* init
* `service_call_by_alias.go`: errServiceCallByAlias.Init
* `service_call_by_alias.locale.eng.go`: *Not modelled:* errServiceCallByAlias.Domain, errServiceCallByAlias.Summary, errServiceCallByAlias.Overview, errServiceCallByAlias.UserNote, errServiceCallByAlias.DevNote, errServiceCallByAlias.TAGS, errServiceCallByAlias.Name, errServiceCallByAlias.Abbreviation, errServiceCallByAlias.Aliases
* `service_not_accept_cli.go`: errServiceNotAcceptCLI.Init
* `service_not_accept_cli.locale.eng.go`: *Not modelled:* errServiceNotAcceptCLI.Domain, errServiceNotAcceptCLI.Summary, errServiceNotAcceptCLI.Overview, errServiceNotAcceptCLI.UserNote, errServiceNotAcceptCLI.DevNote, errServiceNotAcceptCLI.TAGS, errServiceNotAcceptCLI.Name, errServiceNotAcceptCLI.Abbreviation, errServiceNotAcceptCLI.Aliases
* `service_not_accept_cli.locale.per.go`: *Not modelled:* errServiceNotAcceptCLI.Domain, errServiceNotAcceptCLI.Summary, errServiceNotAcceptCLI.Overview, errServiceNotAcceptCLI.UserNote, errServiceNotAcceptCLI.DevNote, errServiceNotAcceptCLI.TAGS, errServiceNotAcceptCLI.Name, errServiceNotAcceptCLI.Abbreviation, errServiceNotAcceptCLI.Aliases
* `service_not_found.go`: errServiceNotFound.Init

### operation/protocol (2 of 4)

* `action.go`: ActionType.Set, ActionType.Check
* `action.locale.eng.go`: *Not modelled:* ActionType.String
* `action.locale.per.go`: *Not modelled:* ActionType.String

### operation/services (6 of 11)

* `services.go`: services_.Register, services_.Services, services_.GetByID, services_.GetByMediaType, services_.Delete, services_.registerServiceByMediaType. *Not modelled:* Register, Delete, Services, GetByID, GetByMediaType

### operation/services/errors (1 of 3)

* `errors.go`: init
* `locale.eng.go`: *Not modelled:* init
* `locale.per.go`: *Not modelled:* init

### os/default (42 of 59)

* `file-directory.go`: FileDirectory.Directories, FileDirectory.Directory, FileDirectory.Files, FileDirectory.File, FileDirectory.FileByPath, FileDirectory.fileByPath, FileDirectory.directoryByPath, FileDirectory.directoryByPathParts, FileDirectory.FindFiles, FileDirectory.FindFile, FileDirectory.FindFileRecursively, FileDirectory.Rename, FileDirectory.Copy, FileDirectory.Move, FileDirectory.Delete, FileDirectory.Wipe, FileDirectory.GetDependencyRecursively, FileDirectory.init. *Not modelled:* FileDirectory.MetaData, FileDirectory.ParentDirectory, FileDirectory.DirectoryByPath
* `file-meta-data.go`: fileMetaData.Hidden. *Not modelled:* fileMetaData.URI, fileMetaData.Size, fileMetaData.Created, fileMetaData.Accessed, fileMetaData.Modified, fileDirectoryMetaData.DirNum, fileDirectoryMetaData.FileNum
* `file.go`: File.Data, File.init, File.Save, File.Rename, File.Compress, File.Replace, File.ReplaceLocation, File.Prepend, File.Append, File.Decode, File.Encode, File.Marshal, File.MarshalTo, File.Unmarshal, File.Len, File.ReadFrom, File.WriteTo. *Not modelled:* File.MetaData, File.ParentDirectory, File.Minify, File.MediaType, File.CompressType
* `network-transport-multiplexer.go`: netTransMux.RegisterNetworkTransportMultiplexer, netTransMux.shutdown
* `os.go`: init, os.Shutdown
* `sort.go`: ByModTime.Less, SortFilesDec. *Not modelled:* ByModTime.Len, ByModTime.Swap

### os/persiaos (1 of 4)

* `network-transport-multiplexer.go`: os.RegisterNetworkTransportMultiplexer
* `os.go`: *Not modelled:* os.AppManifest, init, os.Shutdown

### pool (12 of 12)

* `lifo.go`: LIFO.Init, LIFO.State, LIFO.SetState, LIFO.Len, LIFO.Get, LIFO.Put, LIFO.Close, LIFO.Clean, LIFO.isStop, LIFO.popHead, LIFO.pushHead, LIFO.makeNew

### syllab (80 of 90)

* `decode-safe.go`: GetFixedByteArray, GetByte, GetInt8, GetUInt8, GetBool, GetInt16, GetUInt16, GetInt32, GetUInt32, GetFloat32, GetInt64, GetUInt64, GetFloat64, GetComplex64, GetComplex128, GetString, GetByteArray, GetInt8Array, GetBoolArray, GetInt16Array, GetUInt16Array, GetInt32Array, GetUInt32Array, GetInt64Array, GetUInt64Array, GetFloat32Array, GetFloat64Array, GetComplex64Array, GetComplex128Array, GetStringArray
* `decode-unsafe.go`: UnsafeGetString, UnsafeGetByteArray, UnsafeGetInt8Array, UnsafeGetBoolArray, UnsafeGetInt16Array, UnsafeGetUInt16Array, UnsafeGetInt32Array, UnsafeGetUInt32Array, UnsafeGetInt64Array, UnsafeGetUInt64Array, UnsafeGetFloat32Array, UnsafeGetFloat64Array, UnsafeGetComplex64Array, UnsafeGetComplex128Array, UnsafeGetStringArray
* `encode.go`: SetArray, SetByte, SetInt8, SetUInt8, SetBool, SetInt16, SetUInt16, SetInt32, SetUInt32, SetFloat32, SetInt64, SetUInt64, SetFloat64, SetComplex64, SetComplex128, SetString, SetByteArray, SetInt8Array, SetBoolArray, SetInt16Array, SetUInt16Array, SetInt32Array, SetUInt32Array, SetInt64Array, SetUInt64Array, SetFloat32Array, SetFloat64Array, SetComplex64Array, SetComplex128Array, SetStringArray
* `generator.go`: CompleteMethods, syllabMaker.reset, syllabMaker.make, syllabMaker.getSLIAsString, syllabMaker.checkFieldTag. *Not modelled:* syllabDecoder, SyllabDecoder, syllabEncoder, syllabEncoder, SyllabEncoder, syllabStackLen, syllabHeapLen, syllabLen
* `marshal-unmarshal.go`: *Not modelled:* Marshal, UnMarshal

### time/duration (6 of 6)

* `micro-second.go`: MicroSecond.FromSecAndNano
* `milli-second.go`: MilliSecond.FromSecAndNano
* `nano-second.go`: NanoSecond.ToSecAndNano, NanoSecond.FromSecAndNano
* `second.go`: Second.ToNanoSecond, Second.FromNanoSecond

### time/earth (9 of 9)

* `dayhour.go`: DayHours.Check
* `duration-day.go`: Day.FromNanoSecond, Day.FromSecond
* `duration-hour.go`: Hour.FromNanoSecond, Hour.FromSecond
* `duration-minute.go`: Minute.FromNanoSecond, Minute.FromSecond
* `duration-week.go`: Week.FromNanoSecond, Week.FromSecond

### time/monotonic (20 of 26)

* `atomic.go`: Atomic.Load, Atomic.Store, Atomic.Swap, Atomic.CompareAndSwap, Atomic.Add, Atomic.SecondElapsed, Atomic.NanoInSecondElapsed, Atomic.ToString, Atomic.FromString. *Not modelled:* Atomic.Epoch
* `now.go`: *Not modelled:* now
* `time.go`: Time.SecondElapsed, Time.NanoInSecondElapsed, Time.ToString, Time.FromString, Time.Add, Time.Pass, Time.PassNow, Time.Since, Time.SinceNow, Time.Until, Time.UntilNow. *Not modelled:* Now, Time.Epoch, Time.Now, Time.Equal

### time/unix (25 of 33)

* `atomic.go`: Atomic.Load, Atomic.Store, Atomic.Swap, Atomic.CompareAndSwap, Atomic.Add, Atomic.ToString, Atomic.FromString. *Not modelled:* Atomic.Epoch, Atomic.SecondElapsed, Atomic.NanoInSecondElapsed, Atomic.Now
* `now.go`: *Not modelled:* now
* `time.go`: Now, Time.SecondElapsed, Time.NanoInSecondElapsed, Time.ToString, Time.FromString, Time.ChangeTo, Time.Now, Time.Pass, Time.PassNow, Time.Add, Time.Since, Time.NanoElapsed, Time.MicroElapsed, Time.MilliElapsed, Time.HourElapsed, Time.DayElapsed, Time.ElapsedByNanoSecond, Time.ElapsedBySecond. *Not modelled:* Time.Epoch, Time.SinceNow, Time.SecElapsed

### time/utc (25 of 30)

* `dayhour.go`: DayHours.Check
* `time.go`: Now, Time.ToString, Time.FromString, Time.NanoElapsed, Time.MicroElapsed, Time.MilliElapsed, Time.MinuteElapsed, Time.HourElapsed, Time.DayElapsed, Time.WeekElapsed, Time.MonthElapsed, Time.TropicalYearElapsed, Time.CalendarYearElapsed, Time.ChangeTo, Time.Now, Time.Until, Time.UntilTo, Time.Pass, Time.AddDuration, Time.Local, Time.DayHours, Time.Weekdays. *Not modelled:* Time.Epoch, Time.SecondElapsed, Time.NanoInSecondElapsed, Time.SecElapsed, Time.NanoElapsedSafe
* `weekday.go`: Weekdays.Check, Weekdays.String

### timer (52 of 70)

* `init.go`: init, getActiveTiming, timing.activeTiming
* `sleep.go`: Sleep
* `status.go`: *Not modelled:* Status.Load, Status.Store, Status.CompareAndSwap
* `tick-limit.go`: NewLimitTicker, LimitTicker.Init, LimitTicker.TimerHandler. *Not modelled:* LimitTicker.RemainingNumber
* `tick.go`: NewSyncTick, NewAsyncTick
* `timer-async.go`: NewAsync, Async.Init, Async.Reinit, Async.Start, Async.Stop, Async.Reset, Async.Tick, Async.ToString. *Not modelled:* Async.Deinit, Async.Status, Async.When, Async.FromString
* `timer-sync.go`: After, NewSync, Sync.Init, Sync.Reinit, Sync.Deinit, Sync.TimerHandler. *Not modelled:* Sync.Signal
* `timing-heap-bucket.go`: *Not modelled:* timerBucketHeap.Init, timerBucketHeap.Reinit, timerBucketHeap.Deinit
* `timing-heap.go`: timingHeap.Init, timingHeap.Reinit, timingHeap.Append, timingHeap.DeleteTimer, timingHeap.DeleteTimer0, timingHeap.SiftUpTimer, timingHeap.SiftDownTimer. *Not modelled:* timingHeap.Deinit, timingHeap.LastElementIndex, timingHeap.OccupiedLength
* `timing.go`: Timing.Init, Timing.Reinit, Timing.Start, Timing.MoveToMe, Timing.AddTimer, Timing.deleteTimer, Timing.deleteTimer0, Timing.cleanTimers, Timing.moveTimersTo, Timing.moveTimers, Timing.adjustTimers, Timing.runTimer, Timing.runOneTimer, Timing.clearDeletedTimers, Timing.verifyTimerHeap, Timing.updateTimer0When, Timing.updateTimerModifiedEarliest, Timing.sleepUntil, Timing.noBarrierWakeTime, Timing.isCleanNeed, Timing.checkTimers. *Not modelled:* Timing.Deinit, Timing.addAdjustedTimers, Timing.checkDead
* `util.go`: when

### timer/errors (8 of 71)

* `init.go`: init
* `negative_duration.go`: errNegativeDuration.Init
* `negative_duration.locale.eng.go`: *Not modelled:* errNegativeDuration.Domain, errNegativeDuration.Summary, errNegativeDuration.Overview, errNegativeDuration.UserNote, errNegativeDuration.DevNote, errNegativeDuration.TAGS, errNegativeDuration.Name, errNegativeDuration.Abbreviation, errNegativeDuration.Aliases
* `negative_period_number.go`: errNegativePeriodNumber.Init
* `negative_period_number.locale.eng.go`: *Not modelled:* errNegativePeriodNumber.Domain, errNegativePeriodNumber.Summary, errNegativePeriodNumber.Overview, errNegativePeriodNumber.UserNote, errNegativePeriodNumber.DevNote, errNegativePeriodNumber.TAGS, errNegativePeriodNumber.Name, errNegativePeriodNumber.Abbreviation, errNegativePeriodNumber.Aliases
* `timer_already_init.go`: errTimerAlreadyInit.Init
* `timer_already_init.locale.eng.go`: *Not modelled:* errTimerAlreadyInit.Domain, errTimerAlreadyInit.Summary, errTimerAlreadyInit.Overview, errTimerAlreadyInit.UserNote, errTimerAlreadyInit.DevNote, errTimerAlreadyInit.TAGS, errTimerAlreadyInit.Name, errTimerAlreadyInit.Abbreviation, errTimerAlreadyInit.Aliases
* `timer_already_started.go`: errTimerAlreadyStarted.Init
* `timer_already_started.locale.eng.go`: *Not modelled:* errTimerAlreadyStarted.Domain, errTimerAlreadyStarted.Summary, errTimerAlreadyStarted.Overview, errTimerAlreadyStarted.UserNote, errTimerAlreadyStarted.DevNote, errTimerAlreadyStarted.TAGS, errTimerAlreadyStarted.Name, errTimerAlreadyStarted.Abbreviation, errTimerAlreadyStarted.Aliases
* `timer_bad_status.go`: errTimerBadStatus.Init
* `timer_bad_status.locale.eng.go`: *Not modelled:* errTimerBadStatus.Domain, errTimerBadStatus.Summary, errTimerBadStatus.Overview, errTimerBadStatus.UserNote, errTimerBadStatus.DevNote, errTimerBadStatus.TAGS, errTimerBadStatus.Name, errTimerBadStatus.Abbreviation, errTimerBadStatus.Aliases
* `timer_not_init.go`: errTimerNotInit.Init
* `timer_not_init.locale.eng.go`: *Not modelled:* errTimerNotInit.Domain, errTimerNotInit.Summary, errTimerNotInit.Overview, errTimerNotInit.UserNote, errTimerNotInit.DevNote, errTimerNotInit.TAGS, errTimerNotInit.Name, errTimerNotInit.Abbreviation, errTimerNotInit.Aliases
* `timer_racy_access.go`: errTimerRacyAccess.Init
* `timer_racy_access.locale.eng.go`: *Not modelled:* errTimerRacyAccess.Domain, errTimerRacyAccess.Summary, errTimerRacyAccess.Overview, errTimerRacyAccess.UserNote, errTimerRacyAccess.DevNote, errTimerRacyAccess.TAGS, errTimerRacyAccess.Name, errTimerRacyAccess.Abbreviation, errTimerRacyAccess.Aliases

### timer/timing-wheel (7 of 7)

* `timing-wheel.go`: TimingWheel.Init, TimingWheel.AddTimer, TimingWheel.Start, TimingWheel.Stop, TimingWheel.incrementTickPosition, TimingWheel.checkAndAddTimerAgain, TimingWheel.addedPosition

### user (9 of 11)

* `user-type.go`: CheckUserType
* `user.go`: NewID, UUID.Type, UUID.ID, UUID.ExistenceTime, UUID.secondElapsed, UUID.nanoSecondElapsed, UUID.setSecondElapsed, UUID.setNanoSecondElapsed. *Not modelled:* UUID.UUID, UUID.id

### validators (4 of 6)

* `errors.go`: init
* `locale.eng.go`: *Not modelled:* init
* `locale.per.go`: *Not modelled:* init
* `luhn-algorithm.go`: LuhnAlgorithm, LuhnAlgorithmChecksum
* `text.go`: ValidateTextLength

### www (22 of 26)

* `assets.go`: Assets.Init, Assets.ReloadByCLI. *Not modelled:* Assets.update
* `combine.go`: combine.update, combine.readyAppJSFiles, combine.addLocalized, combine.isInlined, combine.readyDesignLanguagesFiles, combine.readyLandingsFiles, combine.readySWFile. *Not modelled:* combine.readyAppGoToJSFile
* `css.go`: mixCSSToHTML, mixCSSToJS
* `html.go`: mixHTMLToJS, mixHTMLTemplateToJS, localizeHTMLFile, replaceLocalizeTextInHTML. *Not modelled:* localize.jsonDecoder
* `js.go`: JS.addJSToJS, JS.addJSToJSRecursively, JS.extractJSImportsRecursively, JS.extractJSImports, localeAndMixJSFile, localizeJSFile, replaceLocalizeTextInJS. *Not modelled:* JS.checkInlined

### Packages in which nothing is modelled

(root) (2 functions), datatype (14 functions), modules/gui (21 functions), operation/service (7 functions), os (7 functions).

Why these are left out: the `errors` packages and `locale.*` files only declare texts; `log`, `os`,
`cpu`, `crypto` and `minify` call the operating system, the runtime or a library outside
the repository.
