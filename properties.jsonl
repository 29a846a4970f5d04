{"id": "C01", "title": "Fixed-width integers written to a byte buffer are read back exactly, and nothing else moves", "statement": "For the big-endian and the little-endian codec and for widths 16, 32 and 64: storing a value at the front of a buffer that is long enough and loading it again yields the same value; the stored bytes are exactly the base-256 digits of the value in the named byte order; every byte past the width keeps its old value; a buffer shorter than the width makes both operations panic and is the only case in which they panic.", "quantifier": "all values of each width, all buffers of every length and content", "why_tests_cant": "2^64 values times unboundedly many buffers; the property also rules out every out-of-place write.", "anchors": ["binary/be-in-le-cpu.go: BigEndian.{Uint16,Uint32,Uint64,PutUint16,PutUint32,PutUint64}", "binary/le-in-le-cpu.go: LittleEndian.*"]}
{"id": "C02", "title": "The wire format does not depend on the CPU the program was compiled for", "statement": "The big-endian (little-endian) codec must produce the same bytes on every build target. The build variants selected for big-endian CPUs use shifts (which are CPU independent) in the opposite order, so for every value that is not byte-palindromic the two builds emit different bytes and decode each other's output to the byte-swapped value.", "quantifier": "all values, all build variants (little-endian CPU build and big-endian CPU build)", "why_tests_cant": "The variants are never compiled together, so no test binary can compare them.", "anchors": ["binary/be-in-be-cpu.go", "binary/le-in-be-cpu.go", "binary/be-in-le-cpu.go", "binary/le-in-le-cpu.go"]}
{"id": "C03", "title": "Syllab integer fields: set then get returns the value and leaves the other fields alone", "statement": "For every integer field kind (8, 16, 32 and 64 bits, signed and unsigned): setting it at stack index i inside the buffer succeeds, getting it at i returns the value, every byte outside [i, i+size) keeps its value and so does every field that does not overlap it; in a buffer shorter than 4 GiB (the reach of the 32-bit indexes) an index that lets the field stick out of the buffer makes setter and getter panic instead of touching other memory; in a longer one a field at the last index goes on at the front.", "quantifier": "all buffers, all stack indexes, all values, all pairs of disjoint fields", "why_tests_cant": "Universally quantified over buffer contents, offsets and values, and over all other fields of the frame.", "anchors": ["syllab/encode.go: SetInt*/SetUInt*/SetBool/SetComplex*", "syllab/decode-safe.go: GetInt*/GetUInt*/GetBool/GetComplex*"]}
{"id": "C04", "title": "Syllab dynamic fields (strings, byte arrays, integer arrays) round-trip through stack descriptor and heap", "statement": "Encoding a string, byte array or integer array with descriptor at stackIndex and payload at heapIndex into a buffer with enough room for both, with descriptor and payload disjoint, returns the heap index just behind the payload, and decoding with the safe decoder at stackIndex returns exactly the encoded sequence; bytes outside descriptor and payload are untouched, so any sequence of fields encoded with the returned heap indexes decodes to the original record. The copying decoders return exactly as many elements as the descriptor announces on every buffer whose descriptor points into it, and the unsafe ones agree with them where the payload lies inside the buffer.", "quantifier": "all payloads of every length, all buffers, all index pairs, all sequences of fields", "why_tests_cant": "Unbounded payload lengths and field sequences; overlap between fields only shows for particular index combinations.", "anchors": ["syllab/encode.go: SetString, SetByteArray, SetUInt16Array, SetUInt32Array, SetUInt64Array", "syllab/decode-safe.go: GetString, GetByteArray, GetUInt*Array"]}
{"id": "C05", "title": "Syllab string arrays round-trip", "statement": "Encoding a list of strings (descriptor on the stack, table of descriptors at the heap index, contents after the table) and decoding it returns the same list of strings in the same order.", "quantifier": "all lists of strings of every length, all buffers large enough and shorter than 4 GiB, all index pairs that keep the descriptor apart from the table and the contents", "why_tests_cant": "Nested dynamic data: unbounded list lengths times unbounded string lengths.", "anchors": ["syllab/encode.go: SetStringArray", "syllab/decode-safe.go: GetStringArray"]}
{"id": "C06", "title": "Base-10 parsing of 8, 16 and 32-bit unsigned integers is exact and total", "statement": "Parsing succeeds if and only if the text is a non-empty sequence of ASCII digits, not longer than the longest decimal of the type, whose value fits the type, and then stores exactly that value; otherwise an error is reported and the receiver keeps its old value.", "quantifier": "all byte strings, all previous receiver values", "why_tests_cant": "Infinitely many strings; off-by-one errors at the range boundary and silent wrap-around are exactly what sampling misses.", "anchors": ["math/integer/u8.go, u16.go, u32.go: FromString_Base10"]}
{"id": "C07", "title": "Base-10 parsing of 64-bit unsigned integers never silently wraps", "statement": "Parsing a decimal string into a 64-bit unsigned integer either reports an error or stores the number the string denotes. (The code checks overflow only on the multiplication, so some 20-digit strings above 2^64-1 are accepted with a wrapped value; strings of at most 19 digits are exact.)", "quantifier": "all byte strings, all previous receiver values", "why_tests_cant": "The wrap only occurs for specific 20-digit inputs.", "anchors": ["math/integer/u64.go: FromString_Base10"]}
{"id": "C08", "title": "Printing and parsing unsigned integers are inverse", "statement": "For every value of each unsigned width the decimal text produced for it is accepted by the parser and yields the value; two different values never print the same; for text without redundant leading zeros that the 8, 16 or 32-bit parser accepts, parsing and printing gives back the text.", "quantifier": "all values of 8, 16, 32 and 64-bit unsigned integers, all canonical decimal strings for the 8, 16 and 32-bit parsers", "why_tests_cant": "2^64 values.", "anchors": ["math/integer/*.go: ToString, FromString_Base10"]}
{"id": "C09", "title": "Per-N calculations return the exact floor of the ratio whenever the product fits 64 bits", "statement": "per-ten ... per-billion of a number is floor(num*p/N) when num*p < 2^64, and is monotone in both arguments there.", "quantifier": "all 64-bit numbers and all per-N values", "why_tests_cant": "Domain of size 2^64 * 2^k and an overflow boundary.", "anchors": ["math/per/*.go: Calculate"]}
{"id": "C10", "title": "URI escaping round-trips", "statement": "For every escape mode other than the host and zone modes and every byte string s, unescaping the escaped string in the same mode succeeds and returns s, so different strings have different escapes.", "quantifier": "all byte strings, all escape modes but host and zone", "why_tests_cant": "Infinite input space; correctness depends on the interplay of the escape set with '+' and '%' handling.", "anchors": ["net/uri/escape.go: Escape, Unescape, shouldEscape, ishex, unhex"]}
{"id": "C11", "title": "Escaped URI components cannot inject delimiters", "statement": "The output of escaping contains only bytes that the mode allows unescaped, '%' followed by two hex digits, and '+' (query component mode); in particular an escaped query component never contains '&', '=', '#', space or ';', and an escaped path segment never contains '/', '?', or '#'.", "quantifier": "all byte strings, all modes", "why_tests_cant": "A security property over all strings.", "anchors": ["net/uri/escape.go: Escape, shouldEscape"]}
{"id": "C12", "title": "Unescape reports malformed input and never invents data", "statement": "Unescape succeeds if and only if every '%' is followed by two hex digits (and the mode-specific host restrictions hold); on success the output length is the input length minus two per escape; it never panics.", "quantifier": "all byte strings, all modes", "why_tests_cant": "Infinite input space with truncated escapes at every position.", "anchors": ["net/uri/escape.go: Unescape"]}
{"id": "C13", "title": "HTTP header multi-map: reads see what was added, in order", "statement": "After any sequence of additions, the first value of a (non-empty) name is the value of the earliest addition of that name, asking for a name never added gives the empty value, all values of a name (none of them empty) are returned in order of addition and then the end is reported, and additions under other names do not change them.", "quantifier": "all histories of additions and resets, all names and values that are not empty", "why_tests_cant": "Quantifies over all operation histories.", "anchors": ["net/http/header.go: Header_Get, Header_Add, Header_Find, Init, Reinit", "net/http/header-set-cookie.go: SetCookies.Next"]}
{"id": "C14", "title": "HTTP header replacement and deletion", "statement": "After deleting a name it is absent; after setting a name to a value, reading yields that value and only that value (documented as delete then add). The code violates both: set works on a copy of the line and delete removes an empty range.", "quantifier": "all header states reachable by any history, all names and values", "why_tests_cant": "Quantifies over all operation histories.", "anchors": ["net/http/header.go: Header_Set, Header_Del, Exclude"]}
{"id": "C15", "title": "Host check: only requests for the configured domain reach the next handler", "statement": "A request passes the host check only if its host is empty or equals the configured domain; a numeric host and the 'www.' alias of the domain are answered with a permanent redirect to https on the domain that preserves path and query; no other host produces a redirect.", "quantifier": "all hosts, domains, paths and queries", "why_tests_cant": "Security decision over all strings.", "anchors": ["net/http/services/host-supported.go: ServeHTTP"]}
{"id": "C16", "title": "Service multiplexer decision table", "statement": "A call is dispatched to a service handler if and only if the method is POST and the query parses to the identifier of a registered service, then to exactly that one; a wrong method gets 405, a query the identifier parser refuses gets 400 and an unknown service 404, and then no handler runs.", "quantifier": "all methods, query strings and registries", "why_tests_cant": "All combinations of inputs and registered services.", "anchors": ["net/http/services/service-mux.go: ServeHTTP"]}
{"id": "C17", "title": "Cookie sanitising drops exactly what it reports and invents nothing", "statement": "Sanitising a cookie value (path) keeps exactly the bytes the sanitiser accepts, in order, and reports an error exactly when something was dropped; legal input is returned unchanged; nothing is invented and sanitising again changes nothing; a sanitised name has no line break and is otherwise the name. Checking a cookie or Set-Cookie reports the first field in error and returns a good one unchanged but for the domain.", "quantifier": "all byte strings", "why_tests_cant": "A header-injection property over all strings.", "anchors": ["net/http/header-cookie.go: sanitizeCookieName, sanitizeCookieValue", "net/http/header-set-cookie.go: sanitizeCookiePath"]}
{"id": "C18", "title": "Timer heap: no timer is lost or duplicated by any operation", "statement": "Sifting up and down, appending, deleting an arbitrary entry and deleting the first entry preserve the multiset of stored timers up to exactly the added or removed one.", "quantifier": "all heaps of every size, all indexes, all sequences of operations", "why_tests_cant": "Unbounded heap sizes; a lost element shows only for some shapes.", "anchors": ["timer/timing-heap.go: SiftUpTimer, SiftDownTimer, DeleteTimer, DeleteTimer0, Append"]}
{"id": "C19", "title": "Timer heap: the first entry is always the earliest deadline", "statement": "Starting from an empty heap, after any sequence of appends and deletions the entries satisfy the 4-ary heap order, hence the first entry has the minimal deadline of all stored timers.", "quantifier": "all sequences of operations, all deadlines", "why_tests_cant": "Invariant over all histories.", "anchors": ["timer/timing-heap.go"]}
{"id": "C20", "title": "Timer deadline computation never overflows into the past", "statement": "Computing the deadline now+d for any duration gives now for non-positive durations and otherwise a deadline that is not before now; when the sum exceeds the 63-bit range the maximum deadline is used.", "quantifier": "all current times and all durations", "why_tests_cant": "Overflow boundary of 63-bit arithmetic.", "anchors": ["timer/util.go: when"]}
{"id": "C21", "title": "Stopping a timer returns", "statement": "Stopping a timer returns, in every queue that a history of starting, stopping, resetting and running timers can leave.", "quantifier": "all queue states reachable by histories of timer operations, all timers", "why_tests_cant": "A deadlock that depends on the queue history.", "anchors": ["timer/timing.go: AddTimer, cleanTimers", "timer/timer-async.go"]}
{"id": "C22", "title": "Timer status protocol admits only the documented transitions", "statement": "Start, stop and reset move a timer only along the documented status graph; a stop that reports true was applied to a timer that was waiting or modified; concurrent operations on the same timer never leave it in a transient status once all have finished.", "quantifier": "all interleavings of start/stop/reset operations of any number of goroutines", "why_tests_cant": "Quantifies over schedules.", "anchors": ["timer/timer-async.go: Start, Stop, Reset, Tick", "timer/status.go"]}
{"id": "C23", "title": "Object pool never hands out the same item to two users", "statement": "For every interleaving of Get, Put, the cleaner and Close, an item returned by Get was created before, is handed out again only after the user that received it put it back, and no two users ever hold the same item, nor one user twice.", "quantifier": "all histories and interleavings of pool operations", "why_tests_cant": "Quantifies over histories.", "anchors": ["pool/lifo.go: Get, Put, popHead, Clean"]}
{"id": "C24", "title": "Object pool respects its item limit", "statement": "The number of live items created by the pool never exceeds the configured maximum. The clean-up path decrements the counter for slots that never held an item, so the limit can be exceeded.", "quantifier": "all histories of pool operations", "why_tests_cant": "Quantifies over histories.", "anchors": ["pool/lifo.go: makeNew, Clean, Put"]}
{"id": "C25", "title": "Flat buffer appends everything written, in order", "statement": "After any sequence of writes the buffer holds the concatenation of all written data after the initial content, each write reports the full length, and a reset buffer is empty.", "quantifier": "all sequences of writes, all contents", "why_tests_cant": "Quantifies over histories.", "anchors": ["buffer/flat.go: Write, WriteString, WriteByte, Read, ReadByte"]}
{"id": "C26", "title": "Luhn check detects every single-digit error", "statement": "For every digit string accepted by the Luhn check, changing any one digit makes it rejected; swapping two adjacent different digits makes it rejected except for 09/90; for every payload exactly one check digit makes it accepted; the check accepts exactly the strings whose Luhn sum is a multiple of ten.", "quantifier": "all digit strings of every length, all positions, all digits", "why_tests_cant": "Unbounded lengths; error-detection is a statement about all pairs of strings.", "anchors": ["validators/luhn-algorithm.go: LuhnAlgorithm, LuhnAlgorithmChecksum"]}
{"id": "C27", "title": "Durations split into seconds and nanoseconds and recombine exactly", "statement": "Splitting any nanosecond duration into seconds and a nanosecond remainder and recombining gives the duration back; the remainder lies strictly within one second and has the sign of the duration.", "quantifier": "all 64-bit durations", "why_tests_cant": "2^64 values with sign boundary.", "anchors": ["time/duration/nano-second.go: ToSecAndNano, FromSecAndNano"]}
{"id": "C28", "title": "Wall-clock comparison is a strict total order on normalised times", "statement": "The 'passed' comparison of two points in time is irreflexive, transitive and total, and agrees with comparing the total number of nanoseconds for times whose nanosecond part is within a second; the duration until a time is the difference of the two instants.", "quantifier": "all pairs and triples of times", "why_tests_cant": "Order laws over the whole domain.", "anchors": ["time/unix/time.go: Pass, Add"]}
{"id": "C29", "title": "Weekday of a UTC time", "statement": "For every time at or after the epoch the reported weekday bit is the one of the proleptic calendar (the epoch is a Thursday), and the weekday check of a set of days is true exactly when the set holds that day.", "quantifier": "all seconds since the epoch", "why_tests_cant": "Infinite domain with period and offset errors.", "anchors": ["time/utc/time.go: Weekdays, DayHours"]}
{"id": "C30", "title": "Identifiers carry their creation time", "statement": "For 16 and 32-byte identifiers the creation time read from the identifier is the time it was created with and the random part is what the random source gave (or the first bytes of the hash), whatever the variable held; two 16-byte identifiers are equal only if made at the same time with the same random bytes; the stored short forms of generated identifiers are those computed from the hash, and reading the text of a short form gives it back.", "quantifier": "all times, all random bytes", "why_tests_cant": "All combinations of times and random bytes.", "anchors": ["identifier/16byte/uuid.go", "identifier/32byte/uuid.go", "identifier/8byte/uuid.go"]}
{"id": "C31", "title": "RFC 4122 identifiers have the version-4 and variant bits and a canonical text form", "statement": "Every generated identifier has version 4 and the RFC variant whatever the random source returns, the other 122 bits are the random bits unchanged, and its text form is 36 characters with dashes at the fixed positions and lower-case hex elsewhere, distinct identifiers having distinct texts.", "quantifier": "all random inputs, all pairs of identifiers", "why_tests_cant": "2^128 values.", "anchors": ["identifier/rfc-4122/*.go"]}
{"id": "C32", "title": "TCP segment field accessors are independent", "statement": "On every buffer that passes the length check each field is the big-endian number at the place RFC 793 gives it; setting a header field (or setting or clearing a flag) and reading it returns the value and leaves all other fields, flags, the data offset and what follows unchanged.", "quantifier": "all buffers, all field values, all pairs of fields", "why_tests_cant": "All pairs of fields over all contents.", "anchors": ["net/tcp/segment.go"]}
{"id": "C33", "title": "A TCP segment that passes the check can be read without a panic", "statement": "The check of a segment does not panic on any byte string and accepts exactly those with a complete header and a data offset inside; on a checked segment every field, flag and the payload can be read; the second flag byte and the options are written at their places and nothing else changes.", "quantifier": "all byte strings", "why_tests_cant": "A remote-crash property over all inputs.", "anchors": ["net/tcp/segment.go: CheckSegment, Options, Payload"]}
{"id": "C34", "title": "IPv4, IPv6, UDP and GP header accessors", "statement": "For IPv4, IPv6, UDP and GP headers and GP addresses: each accessor of a field of whole bytes reads the number at the place the protocol gives it, setting such a field of a complete header makes it read back and changes no other byte; the checks accept exactly the packets their rule describes and checked packets can be read without a panic; fragmentation flags, clearing of congestion marks, options and payloads are written at their places and change nothing else.", "quantifier": "all packets, all field values", "why_tests_cant": "All pairs of fields over all contents.", "anchors": ["net/ipv4/packet.go", "net/ipv6/packet.go", "net/udp/packet.go", "net/gp/frame.go", "net/gp/address.go"]}
{"id": "C35", "title": "IPv4 addresses round-trip through dotted decimal text", "statement": "For every address the text form parses back to the address, and the text is the four decimal octets separated by dots.", "quantifier": "all 2^32 addresses", "why_tests_cant": "2^32 values and unbounded parser inputs.", "anchors": ["net/ipv4/addr.go: ToString, FromString"]}
{"id": "C36", "title": "Chapar path reversal", "statement": "Reversing a path yields the path in the opposite order with the same length and reversing twice is the identity. The code stores a wrong length for every path and panics for paths shorter than two hops.", "quantifier": "all paths of up to 255 hops", "why_tests_cant": "All lengths and contents.", "anchors": ["net/chapar/path.go: CopyReverseTo"]}
{"id": "C37", "title": "Chapar frames: every switch records its port, and delivery happens after exactly the announced number of hops", "statement": "Passing a frame with a path of h hops (at most 252) through k switches records the k arrival ports in order at the front of the path, leaves the rest of the frame unchanged, leaves through the ports the path names, and reports the last hop exactly at the switch whose number equals the hop count; a frame initialised with a path shows that path and hop count and the next frame begins right behind it.", "quantifier": "all frames with paths of up to 252 hops, all sequences of arrival ports", "why_tests_cant": "All frame contents and hop sequences.", "anchors": ["net/chapar/frame.go: CheckFrame, IncrementNextHop, SetPortNum, Path", "net/chapar/mux.go: Receive"]}
{"id": "C38", "title": "Broadcasting and initialising the port table terminates", "statement": "Sending a broadcast visits each of the 256 ports once and returns. The loop counter is a byte compared with 255, so the loop never ends.", "quantifier": "all port tables, all frames", "why_tests_cant": "Non-termination cannot be established by a finite test.", "anchors": ["net/chapar/mux.go: Init, sendBroadcast"]}
{"id": "C39", "title": "Each frame of a known type uses up a part of the packet", "statement": "What is left after a frame of a known type is a proper end of the packet, and opening a stream asks for the service whose number is in the frame: with a known service the loop goes on behind the frame, with an unknown one it ends with an error.", "quantifier": "all byte strings, all sets of known services", "why_tests_cant": "Termination over all remote inputs.", "anchors": ["net/frames.go: HandleFrames"]}
{"id": "C40", "title": "Event listeners are called exactly once each in registration order", "statement": "For every history of add/remove operations, dispatching an event calls each currently registered listener once per registration, in order of registration; removing deletes exactly the earliest registration of the listener.", "quantifier": "all histories of add, remove and dispatch", "why_tests_cant": "Quantifies over histories.", "anchors": ["event/target.go: AddEventListener, RemoveEventListener, DispatchEvent"]}
{"id": "C41", "title": "Error registry lookups are consistent with the registration history", "statement": "After any history, looking up a (non-zero) identifier or a media type returns the last registered and not since unregistered error with that key, or not-found; in developer mode a registration is refused, changing nothing, exactly when the identifier is zero or in use, so an identifier is never overwritten; when identifiers and texts determine each other the two lookups agree.", "quantifier": "all histories of register/unregister, all identifiers but zero", "why_tests_cant": "Quantifies over histories.", "anchors": ["errors/errors.go: Register, UnRegister, GetByID, GetByMediaType"]}
{"id": "C42", "title": "Service registry: first registration wins", "statement": "A service with identifier zero is rejected and the rejection changes nothing; the identifier and media-type lookups return the service first registered with that key since the last deletion, or not-found; registering a duplicate never replaces an existing service in either index.", "quantifier": "all histories of register/delete", "why_tests_cant": "Quantifies over histories.", "anchors": ["operation/services/services.go: Register, Delete, GetByID, GetByMediaType"]}
{"id": "C43", "title": "Connection counters obey the conservation law", "statement": "For every sequence of connection events, opened = in use + idle + waiting + closed, and closed = sum over the close events; a schedule of concurrent events reaches the same totals in any interleaving.", "quantifier": "all histories and interleavings of counter updates", "why_tests_cant": "Quantifies over histories and schedules.", "anchors": ["net/metric/connections-metric.go", "net/metric/connection.go"]}
{"id": "C44", "title": "Command-line flag parsing assigns each flag the value written for it", "statement": "Parsing a list of arguments made of well-formed flag forms (-name=value, --name=value, -name value, boolean -name) assigns the values in order and leaves no arguments; for every argument list the parser ends, exactly a prefix of well-formed flags is assigned, no undeclared flag is ever set, and there is no error exactly if nothing is left; a name stands for the first declared flag with that name or abbreviation; declarations are refused exactly if a name is malformed or declared twice.", "quantifier": "all argument lists, all flag declarations", "why_tests_cant": "Unbounded argument lists.", "anchors": ["operation/command/flag.go: Parse, parseOne, checkAndSet, Set, Lookup"]}
{"id": "C45", "title": "In-place multi-replacement of file content equals replacing each region of the original", "statement": "For a list of non-overlapping, ascending replacement regions the file content afterwards is the original with each region replaced by its data and everything else kept.", "quantifier": "all contents, all lists of regions and replacement strings of any length", "why_tests_cant": "Index shifting is wrong only for particular combinations of growing and shrinking replacements.", "anchors": ["file/file.go: ReplaceLocation"]}
{"id": "C46", "title": "User-type admission is set inclusion", "statement": "A user type is admitted if and only if each of its bits is allowed by the base mask; admission is reflexive and transitive and monotone in the mask.", "quantifier": "all masks", "why_tests_cant": "Law over all masks.", "anchors": ["user/user-type.go: CheckUserType"]}
{"id": "C47", "title": "JSON numbers, strings and number arrays written by the encoder are read back by the decoder", "statement": "For unsigned integers, booleans, strings and keys without quote characters, non-empty arrays and lists of unsigned integers, base64 byte slices, lists of 32-byte values and whole objects of these, the text written by the encoder followed by any continuation is decoded to the value, and the decoder is left at the continuation (for an array of one number: a continuation without the letter n before its first comma or quote, as such a letter may be taken for null); the minified decoder reads the same from the opening character on, signed numbers included.", "quantifier": "all values, all continuations", "why_tests_cant": "Unbounded strings, arrays and continuations.", "anchors": ["json/encode.go", "json/decode.go", "json/decode-minified.go"]}
{"id": "C48", "title": "TCP segments never break a stream", "statement": "Whatever arrives, in whatever state a TCP stream is, handling it does not panic, and a segment that fails the check is refused and changes nothing; an expected segment asks the application to process the socket exactly when it is pushed; a stream that was opened is established by the first segment with both SYN and ACK, and nothing is delivered before; a reset is asked for exactly in the states of RFC 793.", "quantifier": "all streams and all sequences of arriving segments", "why_tests_cant": "Quantifies over arrival sequences.", "anchors": ["net/tcp/stream-internal.go"]}
{"id": "C49", "title": "Localised scripts: every placeholder is replaced, everything else is copied", "statement": "For a script made of text pieces without placeholder syntax and placeholders with a text, the localised script is the concatenation of the pieces with the placeholder texts; text without placeholders is returned as it is, and a bracket that holds no number is left out.", "quantifier": "all scripts, all text tables", "why_tests_cant": "Unbounded pages.", "anchors": ["www/html.go: replaceLocalizeTextInHTML", "www/js.go: replaceLocalizeTextInJS"]}
{"id": "C50", "title": "Text length validation", "statement": "A text is accepted if and only if its length is at least the minimum and, when a maximum is given, at most the maximum.", "quantifier": "all lengths and bounds", "why_tests_cant": "Boundary logic over all bounds.", "anchors": ["validators/*.go: ValidateTextLength"]}
{"id": "C51", "title": "Text forms of booleans and signed integers", "statement": "Printing a boolean and parsing the text gives the value back, the three spellings of each value are recognised and every other text leaves the variable alone; the text of a signed integer of any width is its canonical decimal text with a minus sign for negative ones, so different integers print differently.", "quantifier": "all values of every width, all previous receiver values", "why_tests_cant": "Every value of every width.", "anchors": ["math/boolean/boolean.go: ToString, FromString", "math/integer/signed*.go: ToString, FromString"]}
{"id": "C52", "title": "Request pipeline sends exactly one response and guards handlers by the host check", "statement": "Whenever serving an HTTP/1 request completes, exactly one response was sent and it was sent last; outside developer mode no service and no static file is reached for a request whose host is neither empty nor the configured domain; a registered address runs exactly its service.", "quantifier": "all requests, registries, service behaviours", "why_tests_cant": "Quantifies over all requests and all handler behaviours.", "anchors": ["net/http/v1/handler.go: ServeHTTP"]}
{"id": "C53", "title": "Cookies written are the cookies read", "statement": "A cookie with a name without an equals sign and with a value, written as text and parsed, gives the cookie back, whatever the target held before.", "quantifier": "all cookies with a value and a name without an equals sign", "why_tests_cant": "Unbounded strings and lists.", "anchors": ["net/http/header-cookie.go: Marshal, Unmarshal, UnmarshalFrom, Next, AddCookie"]}
{"id": "C54", "title": "Set-Cookie text round trip", "statement": "A Set-Cookie value written as text and parsed gives back every field. The code panics on its own output whenever SameSite is combined with HttpOnly or Secure.", "quantifier": "all Set-Cookie values whose fields contain no semicolon", "why_tests_cant": "Every combination of nine fields of unbounded text.", "anchors": ["net/http/header-set-cookie.go: Marshal, Unmarshal"]}
{"id": "C55", "title": "Cookie domain check accepts exactly host names", "statement": "A cookie domain is accepted if and only if it is at most 255 bytes long and, after dropping one optional leading dot, is a dot-separated list of labels of 1 to 63 letters, digits and inner hyphens; the accepted name is returned without the leading dot, everything else is dropped with an error.", "quantifier": "all byte strings", "why_tests_cant": "All strings up to 255 bytes.", "anchors": ["net/http/header-set-cookie.go: sanitizeCookieDomain"]}
{"id": "C56", "title": "Lists of codings are taken apart from the end", "statement": "Repeatedly taking the last coding off a Content-Encoding or Transfer-Encoding list returns the codings in reverse order. The code cuts the first byte of a single coding and the last byte of what remains, and panics on a leading comma.", "quantifier": "all lists of codings", "why_tests_cant": "Unbounded lists and strings.", "anchors": ["net/http/header-content-encoding.go: Last", "net/http/header-transfer-encoding.go: Last"]}
{"id": "C57", "title": "Legacy Pragma header", "statement": "A header without a Cache-Control line and with Pragma: no-cache reads Cache-Control: no-cache afterwards; a header without Pragma: no-cache, or with a Cache-Control value, does not change; what any other name reads never changes.", "quantifier": "all headers", "why_tests_cant": "All header contents.", "anchors": ["net/http/header-pragma.go: FixPragmaCacheControl"]}
{"id": "C58", "title": "Content-Length headers", "statement": "A content length written to a header without one is read back, for every 64-bit length, and an absent one reads as zero.", "quantifier": "all lengths, all headers", "why_tests_cant": "All 64-bit lengths and all strings.", "anchors": ["net/http/header-content-length.go", "net/http/header-content-type.go: FromString"]}
{"id": "C59", "title": "A periodic timer's next deadline lies in the future", "statement": "After a periodic timer has run, its next deadline is later than the time it ran at, and is a whole number of periods after the old one. The code reverses the sign of the lateness, so a timer that runs late by a period or more is given a deadline in the past.", "quantifier": "all deadlines, periods and run times", "why_tests_cant": "The lateness depends on scheduling.", "anchors": ["timer/timing.go: runOneTimer"]}
{"id": "C60", "title": "The scheduler's wake-up time is the earliest deadline it has to look at", "statement": "The time until which the scheduler may sleep is the minimum of the first deadline in the heap and the earliest modified deadline, where zero means none; updating the earliest modified deadline never raises it.", "quantifier": "all pairs of deadlines", "why_tests_cant": "All values, including the zero sentinel.", "anchors": ["timer/timing.go: noBarrierWakeTime, updateTimerModifiedEarliest, sleepUntil"]}
{"id": "C61", "title": "A timer's callback runs only while it is armed and only at or after its deadline", "statement": "For every program of Start, Stop, Reset, Tick and scheduler checks on any number of timers in which the calls return, each callback is of a timer that was armed by the last successful call on it and whose deadline had come; a stopped timer is silent until it is armed again; a one-shot timer runs once per arming.", "quantifier": "all finite sequences of calls, all timers, all durations and clock readings", "why_tests_cant": "Quantifies over histories and times.", "anchors": ["timer/timer-async.go: Start, Stop, Reset, Tick", "timer/timing.go: CheckTimers, runTimer, runOneTimer"]}
{"id": "C62", "title": "When the scheduler has looked at the queue, no due timer is left waiting", "statement": "After a scheduler check at time now returns, no armed timer has a deadline at or before now. With a periodic timer in the queue this fails, since its heap entry keeps the old deadline and hides the timers behind it.", "quantifier": "all finite sequences of calls", "why_tests_cant": "Quantifies over histories and times.", "anchors": ["timer/timing.go: CheckTimers, runTimer, runOneTimer"]}
{"id": "C63", "title": "The timing queue's bookkeeping is exact", "statement": "In every queue a program can produce, the heap is ordered, each timer occurs at most once, it holds exactly the armed timers and the stopped ones not yet taken out, and the timer counter, the deleted counter and the cached first deadline are exact.", "quantifier": "all finite sequences of calls", "why_tests_cant": "An invariant over histories.", "anchors": ["timer/timing.go: AddTimer, cleanTimers, CheckTimers, clearDeletedTimers"]}
{"id": "C64", "title": "Sweeping out stopped timers loses nothing", "statement": "Removing stopped timers from the queue always completes, keeps every armed timer with its deadline, keeps the order, runs no callback, and leaves no stopped timer in the heap.", "quantifier": "all queue states a program can produce", "why_tests_cant": "An in-place compaction of a heap of any size.", "anchors": ["timer/timing.go: clearDeletedTimers"]}
{"id": "C65", "title": "The scheduler's check always completes", "statement": "Looking for timers to run returns in every queue state. The code panics when a reset timer's new deadline has come, because it walks over heap slots its own removals cleared, and deadlocks when the first timer was reset.", "quantifier": "all queue states a program can produce, all times", "why_tests_cant": "The failure depends on the queue history.", "anchors": ["timer/timing.go: CheckTimers, adjustTimers, addAdjustedTimers, runTimer"]}
{"id": "C66", "title": "A timer call that returns an error changes nothing", "statement": "A Start, Stop or Reset that reports an error leaves the queue and all timers as they were; a duration below one nanosecond is exactly what makes Start, Reset and Tick report a negative duration.", "quantifier": "all queue states a program can produce", "why_tests_cant": "Quantifies over histories.", "anchors": ["timer/timer-async.go: Start, Stop, Reset, Tick"]}
{"id": "C67", "title": "A limited ticker is refused below one tick and holds one signal", "statement": "A limited ticker is refused exactly for fewer than one tick, and however often it fires its channel holds one signal: one receive succeeds and the next finds nothing.", "quantifier": "all n, all states of a ticker", "why_tests_cant": "All counts.", "anchors": ["timer/tick-limit.go: NewLimitTicker, TimerHandler, RemainingNumber", "timer/timer-sync.go: TimerHandler"]}
{"id": "C68", "title": "The timing wheel runs a timer after its period", "statement": "A timer added to the wheel with a period shorter than one turn runs when its period has passed, and again every period, from any position of the wheel. The code does not wrap positions, counts one tick too many, and runs one-shot timers at once.", "quantifier": "all wheel sizes, positions, intervals and periods", "why_tests_cant": "All sizes and positions.", "anchors": ["timer/timing-wheel/timing-wheel.go: AddTimer, Start, addedPosition, checkAndAddTimerAgain"]}
{"id": "C69", "title": "Object pool hands out the most recently returned item", "statement": "Get returns the idle item that was put back last. The code keeps one 'hot' item aside, so the order is broken, and an item put back while the hot place is taken is not preferred.", "quantifier": "all histories of pool operations", "why_tests_cant": "Order over histories of unbounded length.", "anchors": ["pool/lifo.go: Get, Put, popHead, pushHead"]}
{"id": "C70", "title": "Closing a pool closes every idle item", "statement": "After Close every item that was idle in the pool has been cleaned up exactly once. The code forgets the hot item and the items the cleaner had set aside.", "quantifier": "all histories of pool operations", "why_tests_cant": "Quantifies over histories.", "anchors": ["pool/lifo.go: Close, Put, Clean"]}
{"id": "C71", "title": "A pool creates items within its limit and serves nobody after Close", "statement": "On a running pool with no idle item an undisturbed Get creates one as long as the limit permits; from the moment Close begins every Get that is called returns nothing, an item put back is cleaned up at once, and the pool never runs again.", "quantifier": "all histories of pool operations", "why_tests_cant": "Quantifies over histories.", "anchors": ["pool/lifo.go: Get, makeNew, Clean"]}
{"id": "C72", "title": "Growing a buffer makes room and keeps its content", "statement": "Grow(n) guarantees room for n more bytes without changing the content, allocates only when there is not enough room and then as documented, and writing up to n bytes afterwards does not allocate again.", "quantifier": "all buffers (content, length, capacity), all n", "why_tests_cant": "All capacities and stale contents.", "anchors": ["buffer/flat.go: Grow, GrowLen, Reset"]}
{"id": "C73", "title": "Storing and swapping the wall clock alone", "statement": "A goroutine that stores or swaps the wall clock with no other one in between leaves exactly the time it stored, both seconds and nanoseconds, and a swap answers exactly the time that was there.", "quantifier": "all times", "why_tests_cant": "Depends on the schedule.", "anchors": ["time/unix/atomic.go: Load, Store, CompareAndSwap"]}
{"id": "C74", "title": "Monotonic clock seconds and nanoseconds within the second", "statement": "The elapsed seconds are the elapsed nanoseconds divided by 10^9 and the nanoseconds within the second are the remainder; comparing, adding and subtracting are exact. The code divides by one instead of 10^9.", "quantifier": "all 64-bit monotonic times", "why_tests_cant": "2^64 values.", "anchors": ["time/monotonic/time.go: SecondElapsed, NanoInSecondElapsed, Pass, Add, Since, Until", "time/duration/second.go: OneSecond"]}
{"id": "C75", "title": "Elapsed time in every unit is the floor of the instant", "statement": "For every normalised time at or after the epoch, the elapsed nano-, micro- and milliseconds, hours and days are the instant divided by the unit, rounded down.", "quantifier": "all normalised times at or after the epoch; for nano-, micro- and milliseconds those whose nanoseconds fit 63 bits", "why_tests_cant": "2^96 values; carries between the two parts.", "anchors": ["time/unix/time.go", "time/utc/time.go", "time/duration/micro-second.go", "time/duration/milli-second.go"]}
{"id": "C76", "title": "Reading IPv6 addresses", "statement": "Parsing the full form of eight hexadecimal groups, or a form with one double colon and at least one group, gives the address whatever the variable held before; the IPv4-mapped form is right; every address is exactly one of unspecified, loopback, multicast, link-local unicast or global unicast, each with the prefix the standard gives it.", "quantifier": "all addresses, all group texts and ellipsis positions, all earlier contents of the variable", "why_tests_cant": "2^128 addresses and unboundedly many texts; a test tries a handful", "anchors": ["net/ipv6/addr.go: ToString, FromString, FromIPv4, IsGlobalUnicast"]}
{"id": "C77", "title": "Chapar connections keep distinct alternative paths", "statement": "Alternative paths of a connection never repeat each other or the path in use, whatever is added in whatever order, and a refused addition changes nothing.", "quantifier": "all frames, connections and histories of path additions", "why_tests_cant": "All histories and path contents.", "anchors": ["net/chapar/connection.go: init, WriteFrame, SetAlternativePath, ChangePath"]}
{"id": "C78", "title": "Media-type and compress-type lookups return the last registration", "statement": "After any sequence of registrations a lookup by text, identifier, file extension or content encoding returns the last type registered with that key; listed content encodings can be looked up; registering an empty type panics; parsing a media type splits it at its first slash and panics without one.", "quantifier": "all histories of registrations, all keys, all texts", "why_tests_cant": "the indexes are independent maps updated together: only the whole history decides each lookup", "anchors": ["mediatypes/media-types.go: Register, GetByMediaType, GetByID, GetByFileExtension", "compress-types/compress-types.go: Register, ContentEncodings", "mediatype/media-type.go: MediaType.FromString"]}
{"id": "C79", "title": "Error equality is an equivalence that wrapping does not change", "statement": "Comparing error values is reflexive, symmetric and transitive, nil equals only nil, and an error wrapped any number of times stays equal to the original while the last wrapped cause can be recovered.", "quantifier": "all error values, all wrapping depths", "why_tests_cant": "equality ranges over all pairs of values and unbounded chains", "anchors": ["error/error.go: Error.IsEqual", "error/chain-error.go: NewChain, PastChain"]}
{"id": "C80", "title": "Traffic counters count every reported packet and byte exactly once", "statement": "Each traffic counter of a connection is the number of the events it counts, or the sum of their packet lengths modulo 2^64; resent packets count as sent and as lost; reports from any number of goroutines in any interleaving give the same totals.", "quantifier": "all histories, all numbers of goroutines, all interleavings", "why_tests_cant": "a lost update shows only in some schedules", "anchors": ["net/metric/connection.go: Metric"]}
{"id": "C81", "title": "A user identifier gives back the type and time it was made with", "statement": "The type and the existence time read from a new user identifier are those it was made with, and its random part is what the random source gave. The code loses both: setters work on a copy and the type is read from another byte.", "quantifier": "all types, times and random bytes", "why_tests_cant": "every identifier shows the fault in some field; only a statement over all fields pins the layout", "anchors": ["user/user.go: NewID, UUID.Type, UUID.ExistenceTime, UUID.ID"]}
{"id": "C82", "title": "The arguments written for an object are read back", "statement": "Reading the arguments written for an object gives every field its text back. The code writes names without a dash, so reading fails for every object with a text.", "quantifier": "all field lists, all values", "why_tests_cant": "the failure must be shown for every object, not for an example", "anchors": ["operation/command/cla.go: ToCLA, FromCLA"]}
{"id": "C83", "title": "A command line runs exactly the command its words lead to", "statement": "A handler runs, with the remaining arguments, exactly when each preceding word is the name or abbreviation of the first sub command that answers to it; unknown words and aliases are refused; the path of a command is its names from the root.", "quantifier": "all command trees of any depth, all argument lists", "why_tests_cant": "command trees and argument lists are unbounded", "anchors": ["operation/command/command.go: Command.SubCommand", "operation/command/serve.go: ServeCLA, CommandPath"]}
{"id": "C84", "title": "File names split into directory, name and extension and join back", "statement": "Directory and name of a path give the path back; the extension is what follows the last dot; the parts of a path joined with slashes are the path; renaming by content hash keeps directory and extension, and two contents get the same name exactly if their checksums are equal.", "quantifier": "all paths, names and contents", "why_tests_cant": "names are unbounded and the faults depend on where dots and slashes are", "anchors": ["file/uri.go: URI.Init, URI.NameWithoutExtension, URI.IsDirectory, URI.Unmarshal, Extension, FilePathParts, IsPathDirectory", "file/file.go: AddHashToFileName"]}
{"id": "C85", "title": "A relative path finds the file it names", "statement": "From a file in any directory of any tree, the path that goes up and then down existing directories, with at least one such step, finds the file there, or nothing if it does not exist.", "quantifier": "all trees, all directories, all relative paths", "why_tests_cant": "trees and paths are unbounded", "anchors": ["file/file.go: FindByRelativeFrom"]}
{"id": "C86", "title": "JSON decoding calls that return, and exactly which ones panic", "statement": "A list decoder that remembers no item returns on every text, after at most one round per byte, without a panic; reading a number or a key never panics and never lengthens the text; reading a boolean panics exactly when the rest is too short for it, and reading a string only when an n stands among the last three bytes; a null string is empty.", "quantifier": "every text, every decoder state left by earlier calls", "why_tests_cant": "Texts are unbounded and the failing ones depend on what was decoded before.", "anchors": ["json/decode.go DecodeByteSliceAsNumber", "json/decode.go DecodeBool", "json/decode.go CheckNullValue"]}
{"id": "C87", "title": "A JSON codec returns the text of the object it wraps", "statement": "Marshal returns the current JSON text of the wrapped object and reports the object's error. Refuted: the error is never reported, the first text is kept when the object changes, and refused text is returned as the object's text.", "quantifier": "every wrapped object and every sequence of changes to it", "why_tests_cant": "The wrapped object is arbitrary.", "anchors": ["json/codec.go Marshal", "json/codec.go Unmarshal", "json/codec.go MarshalTo"]}
{"id": "C88", "title": "A combined script holds every imported module exactly once", "statement": "For every main script, the combined script consists of the data of the scripts reached over import statements (cycles allowed), each exactly once; import statements behind the first byte are taken out with their paths in order and the rest of the script is unchanged; adding a script twice adds it once.", "quantifier": "every import graph, every script text", "why_tests_cant": "Import graphs are unbounded and may be cyclic; the order fails only for shared modules.", "anchors": ["www/js.go extractJSImports", "www/js.go extractJSImportsRecursively", "www/combine.go readyAppJSFiles", "www/combine.go addLocalized", "www/js.go addJSToJSRecursively"]}
{"id": "C89", "title": "Styles and pages are placed in the slots of the script", "statement": "The style sheet is inserted right after the first style slot of a script, the page right after the first grave accent of the page slot of a script that has one, and a page gets its style as a style element at its end; nothing else changes.", "quantifier": "every script, page and style sheet", "why_tests_cant": "The texts are arbitrary.", "anchors": ["www/css.go mixCSSToHTML", "www/css.go mixCSSToJS", "www/html.go mixHTMLToJS", "www/js.go localeAndMixJSFile"]}
{"id": "C90", "title": "TCP options: the option list is walked to its end", "statement": "Handling any option list of a segment ends, and after each option the one behind it is handled. The code never leaves a no-operation or an option of a kind other than maximum segment size, and panics on a cut-off one; four of the option types skip a wrong number of bytes.", "quantifier": "all option lists, all numbers of rounds of the loop", "why_tests_cant": "Non-termination is not observable by a finite test; option lists are unbounded.", "anchors": ["net/tcp/stream-internal.go: handleOptions", "net/tcp/option.go", "net/tcp/option-mss.go", "net/tcp/option-timestamps.go"]}
{"id": "C91", "title": "TCP connection attempts: the retry limit is reported once and for all", "statement": "The limit is reported exactly when more SYN (SYN-ACK) segments were counted than configured, and a reused stream starts anew. The 8-bit counter wraps and Reinit keeps it.", "quantifier": "all numbers of retries", "why_tests_cant": "Unbounded counts.", "anchors": ["net/tcp/stream-internal-syn.go", "net/tcp/stream-internal-syn-ack.go"]}
{"id": "C92", "title": "TCP keep-alive: what one check of a stream does", "statement": "A due keep-alive check of an established stream that was used since the last check starts a new idle period and forgets the probes; of an idle one it sends a probe and counts it, or closes the stream when the probes are used up; a check that is not due, switched off or in another state changes nothing. A user timeout check does the same with closing in place of probing.", "quantifier": "all clock readings, all check histories", "why_tests_cant": "Quantifies over clocks and histories.", "anchors": ["net/tcp/stream-timing-keep_alive.go: CheckInterval", "net/tcp/stream-timing-user_timeout.go: CheckInterval"]}
{"id": "C93", "title": "TCP stream timer: a stream's timer is armed with the earliest wait", "statement": "After initialisation and after each firing the timer is armed with the smallest positive wait of the mechanisms that are on. The code never arms it.", "quantifier": "all histories of initialisations and firings, all configurations", "why_tests_cant": "Never over unbounded histories.", "anchors": ["net/tcp/stream-timing.go: Init, TimerHandler"]}
{"id": "C94", "title": "Starting and closing a pool", "statement": "Init, with a limit above -4, succeeds exactly on a pool that was never started, which then runs and holds no idle item in its list; Close succeeds exactly on a running one, which is then stopped; every other call is refused with a panic.", "quantifier": "every pool state", "why_tests_cant": "the misuse orders and recoveries are not enumerable, and the effect shows only in later calls", "anchors": ["pool/lifo.go LIFO.Init", "pool/lifo.go LIFO.Close", "pool/lifo.go LIFO.SetState"]}
{"id": "C95", "title": "A pool's length is the number of its idle items", "statement": "Len returns how many items are idle in the pool. The code counts nil slots and misses the hot item, so an empty pool reports a quarter of its limit and returning the first item does not change it.", "quantifier": "every pool state and limit", "why_tests_cant": "holds or fails depending on history and limit", "anchors": ["pool/lifo.go LIFO.Len", "pool/lifo.go LIFO.Init"]}
{"id": "C96", "title": "URI text is split into its parts", "statement": "Reading a URI text (absolute form, origin form or host first), followed by nothing or by a space and more, gives exactly its scheme, authority, path, query and fragment, and the place where it ends. The code does this except: a colon in an origin-form text turns what precedes it into the scheme, an absolute URI without a path loses its authority, a question mark in the fragment of a URI without a query spoils the path, and a reused object keeps the old query and fragment.", "quantifier": "all schemes, authorities, paths, queries, fragments, all that may follow, all previous contents of the object", "why_tests_cant": "all texts; the failures depend on which signs occur where", "anchors": ["net/uri/uri.go URI.UnmarshalFromString"]}
{"id": "C97", "title": "Reading a URI loses no data", "statement": "Whatever text is read as a URI, the text taken for the URI followed by the data left over is the data.", "quantifier": "all byte strings", "why_tests_cant": "texts from the network are unbounded and adversarial", "anchors": ["net/uri/uri.go URI.UnmarshalFromString", "net/uri/uri.go URI.UnmarshalFrom"]}
{"id": "C98", "title": "A written URI is read back as the same URI", "statement": "Writing a URI and reading the text gives the same scheme, authority, path (an empty one becomes '/') and query; a URI that was read is written as the text it was read from; appending to a packet keeps the packet.", "quantifier": "all URIs whose parts do not contain the signs that end them, all packets", "why_tests_cant": "round trips over all parts", "anchors": ["net/uri/uri.go URI.Marshal", "net/uri/uri.go URI.MarshalTo", "net/uri/uri.go URI.Unmarshal"]}
{"id": "C99", "title": "Changes to a URI show in what is written", "statement": "After Set or Reinit, Marshal writes the new parts, and Len is enough for what is written. The code keeps writing the text it cached first, writes nothing after Reinit, and Len is one too small for a URI with scheme and query but no path and fragment.", "quantifier": "all URIs, all new parts, all histories of one write and one change", "why_tests_cant": "depends on the history and on which parts are empty", "anchors": ["net/uri/uri.go URI.Set", "net/uri/uri.go URI.Reinit", "net/uri/uri.go URI.Marshal", "net/uri/uri.go URI.Len"]}
{"id": "C100", "title": "An authority is split into user, host and port", "statement": "Initialising an authority text user:password@host:port gives user name, password, host and port. With user information the code cuts host and port out of the user information instead, and reading a URI never sets host and port.", "quantifier": "all authority texts", "why_tests_cant": "all texts", "anchors": ["net/uri/uri-authority.go Authority.Init", "net/uri/uri-user_Information.go UserInformation.Init"]}
{"id": "C101", "title": "A written query is read back as the same query", "statement": "Writing a query and reading it back gives every key the same values in the same order, whatever bytes keys and values contain and in whatever order the runtime walks the map.", "quantifier": "all finite maps from byte strings to value lists, all iteration orders", "why_tests_cant": "map order is random and the bytes are arbitrary", "anchors": ["net/uri/uri-query.go Query.ToString", "net/uri/uri-query.go Query.FromString"]}
{"id": "C102", "title": "A query is read setting by setting", "statement": "Reading any query text never panics; every setting is judged on its own, and exactly those that decode (and have no colon) add their value to their key, in order, after the values the key had.", "quantifier": "all query texts, all previous contents", "why_tests_cant": "all texts and error positions", "anchors": ["net/uri/uri-query.go Query.FromString", "net/uri/const.go sign_Semicolon"]}
{"id": "C103", "title": "Query values follow the history of changes", "statement": "After any history of Set, Add and Del on an initialised query, a key has exactly the values the changes to that key gave it, Get returns the first, Has tells whether it is there, and other keys are untouched.", "quantifier": "all histories, all keys, all initialised queries", "why_tests_cant": "unbounded histories", "anchors": ["net/uri/uri-query.go Query.Set", "net/uri/uri-query.go Query.Add", "net/uri/uri-query.go Query.Del", "net/uri/uri-query.go Query.Get", "net/uri/uri-query.go Query.Has"]}
{"id": "C104", "title": "The first of the accepted media types", "statement": "For every Accept header the first media type read from it is one of the highest quality, and blanks around elements do not matter.", "quantifier": "every header text, every strict order on qualities (including incomparable values)", "why_tests_cant": "the number, order and qualities of the elements are unbounded and the outcome depends on all of them", "anchors": ["net/http/header-accept.go insertMime", "net/http/header-accept.go sortMimes"]}
{"id": "C105", "title": "Set-Cookie age and SameSite mode survive writing and reading", "statement": "The Max-Age and SameSite attribute set on a Set-Cookie value are the ones read back (an age below zero as zero, a number that is no mode leaves the mode), from the value itself and by a peer that parses the line; setting one attribute touches no other; adding cookies to a header adds one line each in order.", "quantifier": "every 64-bit age, every mode number, every cookie without separators in its fields, every list of cookies", "why_tests_cant": "ages are unbounded and every combination of attributes must round trip", "anchors": ["net/http/header-set-cookie.go SetMaxAge GetMaxAge SetSameSite GetSameSite AddSetCookie"]}
{"id": "C106", "title": "Status code, status text and redirect of a response", "statement": "A status set with one of the constants reads back as its number with its phrase; the code is read exactly when its text is a 16-bit decimal; the status chosen for an error follows the table; a redirect of a response without a Location line sets status and Location.", "quantifier": "every response, every status text, every error identifier", "why_tests_cant": "identifiers and texts range over unbounded or 64-bit domains", "anchors": ["net/http/response.go GetStatusCode GetError SetError Redirect SetStatusByError", "net/http/const.go GetStatusText"]}
{"id": "C107", "title": "Outgoing response carries what the handler set and the body's description", "statement": "For every response and body the response sent carries the request's version, status and phrase of the handler, the handler's own lines unchanged and in front, the body's media type and encoding unless the handler set them, and one line about the body's length at the end; a body of known length is announced with that length when the handler set none.", "quantifier": "every response, header and body", "why_tests_cant": "headers and lengths are unbounded", "anchors": ["net/http/v1/handler.go HandleOutcomeResponse", "net/http/body.go Body Len MediaType CompressType", "net/http/header-content-length.go AddContentLength"]}
{"id": "C108", "title": "Host of a request: target authority wins, else the Host line", "statement": "After the host check of a request its authority is the one of the request target when there is one and the Host line otherwise; nothing else changes and checking again changes nothing.", "quantifier": "every request URI and header", "why_tests_cant": "headers and URIs are unbounded", "anchors": ["net/http/request.go CheckHost", "net/http/services/host-supported.go ServeHTTP"]}
{"id": "C109", "title": "Requests that cannot be sent are reported", "statement": "A request that cannot be sent, because the stream cannot be opened or the request not be encoded or handed over, returns that error at once whatever the stream reports; an error of an sRPC service is set on the socket and then no response is, and a response only without an error.", "quantifier": "every sequence of stream states, every outcome of opening and encoding", "why_tests_cant": "the sequence of states is unbounded and chosen by the network", "anchors": ["net/http/v1/handler.go SendBidirectionalRequest SendUnidirectionalRequest", "net/srpc/handler.go SendBidirectionalRequest HandleIncomeRequest"]}
{"id": "C110", "title": "Web content is served for every path", "statement": "Every request path gets a response: the file of the path, or the main page for any other path, with status 200 and the cache rule.", "quantifier": "every path, every set of files, every response", "why_tests_cant": "paths and file sets are unbounded", "anchors": ["net/http/services/serve-www.go ServeHTTP"]}
{"id": "C111", "title": "Unsafe slice conversions are views", "statement": "Converting between a slice of numbers and a slice of bytes, or between a string and bytes, gives a view of the same memory: the same bytes in order, never outside the original slice; converting there and back gives the same slice when it consists of whole elements; a store through one view changes exactly that byte of the other.", "quantifier": "every element size, every slice, every memory, every index stored to", "why_tests_cant": "memory contents and slice bounds are unbounded", "anchors": ["convert/convert.go:UnsafeByteSliceToString"]}
{"id": "C112", "title": "Files and directories asked for by name can be used", "statement": "Asking a directory for a file or directory by name gives an object that can be used, made on disk at most once; searching and deleting answer without a panic.", "quantifier": "every history of calls on a file tree", "why_tests_cant": "histories and trees are unbounded", "anchors": ["os/default/file-directory.go:File", "os/default/file-directory.go:Directory"]}
{"id": "C113", "title": "Directories are found by their names", "statement": "Looking up a directory by a list of names finds exactly the directory the names lead to, and never panics.", "quantifier": "every tree, every list of names", "why_tests_cant": "trees and paths are unbounded", "anchors": ["os/default/file-directory.go:FileByPath"]}
{"id": "C114", "title": "Listings and searches are complete", "statement": "Listing a directory gives every file once in order of names; searching by part of a name gives the files whose names hold it, up to the number asked for, whatever order the map is visited in; searching for one file answers nil exactly when no name holds the part.", "quantifier": "every directory, every order of iteration, every page and part of a name", "why_tests_cant": "the iteration order of a map is not under a test's control", "anchors": ["os/default/file-directory.go:Files", "os/default/file-directory.go:FindFiles"]}
{"id": "C115", "title": "File content is kept", "statement": "Content set, or read from a reader, is what every way of reading it gives and no other file changes; compressing replaces the content by its compressed form except for media files; replacing text gives the standard replacement; renaming moves exactly that file in its directory.", "quantifier": "every file, content and tree", "why_tests_cant": "contents and trees are unbounded", "anchors": ["os/default/file.go:Append", "os/default/file.go:Save"]}
{"id": "C116", "title": "The time limit a socket is set up with", "statement": "A socket is initialised with a time limit exactly when the limit is positive and it was not initialised before, and takes a new one exactly when it is positive and the socket was initialised; its timer then waits for the moment after the limit.", "quantifier": "every clock and duration", "why_tests_cant": "clocks and orders of calls are unbounded", "anchors": ["net/socket-timing.go:SetReadTimeout", "net/socket-timing.go:TimerHandler"]}
{"id": "C117", "title": "Socket states do not block, and standard deadlines keep their meaning", "statement": "Announcing a state on a socket does not block the caller and reaches who waits; the zero deadline of the standard library removes the limit and a past one expires at once.", "quantifier": "every socket, state, channel fill and deadline", "why_tests_cant": "blocking for ever cannot be observed by a test", "anchors": ["net/connection-status.go:SetStatus", "net/std/net.go:untilTo"]}
{"id": "C118", "title": "Waiting for and receiving socket data", "statement": "Waiting for a message ends exactly when it is received completely, and stops the timer; receiving answers what the buffer holds, behind the bytes given, no more than there is room for.", "quantifier": "every sequence of states, every data", "why_tests_cant": "non-termination cannot be observed by a test", "anchors": ["net/socket-codec.go:Unmarshal", "net/socket-codec.go:Marshal"]}
{"id": "C119", "title": "A queue keeps what is written", "statement": "Bytes written to a queue are counted and read back in order, and the queue says when it is full.", "quantifier": "every history of calls, every slice", "why_tests_cant": "histories are unbounded", "anchors": ["adt/queue/queue.go:Write", "adt/queue/queue.go:Read"]}
{"id": "C120", "title": "Application status changes", "statement": "Each status change is stored and announced without blocking to every listener that waits or has room, and to no other, in order and within the listener's capacity.", "quantifier": "every history of events, every set of listeners, every outcome of the parts", "why_tests_cant": "histories and fill states of channels are unbounded", "anchors": ["achaemenid/application.go:Init", "achaemenid/status.go:changeState"]}
{"id": "C121", "title": "Stream status and its watchers", "statement": "The status of a stream is the one last stored, compare-and-swap succeeds exactly on the expected status, and over every history the waiting goroutines are told exactly the changes announced while one of them waited, in order.", "quantifier": "every history of stores, swaps and waits", "why_tests_cant": "schedules are unbounded", "anchors": ["net/tcp/stream-status.go:CompareAndSwap", "net/tcp/stream-status.go:notify"]}
{"id": "C122", "title": "Elapsed periods of whole seconds", "statement": "For every time from the epoch on and every number of seconds, the number of elapsed periods is the elapsed time divided by the period, rounded down; no periods of a negative length have elapsed.", "quantifier": "every time and every period in seconds", "why_tests_cant": "both ranges are 64 bit", "anchors": ["time/unix/time.go:ElapsedByNanoSecond", "time/unix/time.go:ElapsedBySecond", "time/unix/time.go:Since"]}
{"id": "C123", "title": "Day names", "statement": "In English each day of the week has its own name, and a set of days has a name exactly when it is a single day; in either language different days have different names.", "quantifier": "every 8 bit set of days and both languages", "why_tests_cant": "sets of days are rarely enumerated", "anchors": ["time/utc/weekday.go:String"]}
{"id": "C124", "title": "Generated encoders and decoders", "statement": "For a struct type, the generated methods reserve for each field its own place, the generated length is the length the encoder needs, and the generated decoder gives back every field the generated encoder wrote.", "quantifier": "every struct type, any number of fields, every value", "why_tests_cant": "types and values together are unbounded; tests cover a handful of structs", "anchors": ["syllab/generator.go:CompleteMethods", "syllab/generator.go:syllabMaker.make"]}
{"id": "C125", "title": "Fields that take part in generated encoders", "statement": "A field tagged out changes nothing in the generated code; every other named field is met, each of its names once, in the order written.", "quantifier": "every struct type", "why_tests_cant": "the set of Go types is unbounded", "anchors": ["syllab/generator.go:syllabMaker.make", "syllab/generator.go:checkFieldTag"]}
{"id": "C126", "title": "Which methods get code", "statement": "A method is given a body exactly by its name, in either spelling: decoder, encoder, the two lengths or their sum; any other method keeps its body; functions that are no methods do not disturb a method.", "quantifier": "every name of a method, every number of functions", "why_tests_cant": "the order and naming of declarations is unbounded", "anchors": ["syllab/generator.go:CompleteMethods"]}
{"id": "C127", "title": "Nested structs in generated code", "statement": "A struct inside a struct is encoded at its own place, behind the fields before it, and generation ends for every file.", "quantifier": "every type and value", "why_tests_cant": "needs all nestings", "anchors": ["syllab/generator.go:syllabMaker.make"]}
{"id": "C128", "title": "Replacing places of a file", "statement": "Replacing a list of places of a file, given by their positions, in order and without overlap, gives the text with exactly these places replaced.", "quantifier": "every text and every ordered list of disjoint places", "why_tests_cant": "lengths shrink and grow in any combination", "anchors": ["os/default/file.go:ReplaceLocation"]}
{"id": "C129", "title": "Compressing a codec", "statement": "A compressor answers every call as a codec holding the compressed contents of its source, errors of the source and of the level are reported, and it can be initialised for another source.", "quantifier": "every source, level, and history of calls", "why_tests_cant": "histories and contents are unbounded; the library's compression is a parameter", "anchors": ["compress/gzip/compressor.go:Compressor", "compress/flate/compressor.go:Compressor"]}
{"id": "C130", "title": "Deflate decompressors, and refused gzip input", "statement": "The deflate decompressor refuses new data and keeps what it has; writing it gives the plain contents, their number and a report of damage, after any history; a source that fails is reported by both compressors and by the deflate decompressor, nothing is kept and the next call tries again; a gzip decompressor that is told to read what it refuses says so then and afterwards.", "quantifier": "every source, damaged or not, and every history of calls", "why_tests_cant": "which prefix of damaged data can be read is not enumerable", "anchors": ["compress/gzip/decompressor.go:Decompressor", "compress/flate/decompressor.go:Decompressor"]}
{"id": "C131", "title": "Framework errors as Go errors", "statement": "An error survives the conversion to a Go error and back, and any Go error can be handed to the framework.", "quantifier": "every error and every Go error", "why_tests_cant": "Go errors are an open set of types", "anchors": ["error/util.go:ToGoError", "error/util.go:ToError"]}
{"id": "C132", "title": "Characters of compressed text", "statement": "Going through a compressed text by character gives its characters with their sizes, to the end; compressing and expanding a text gives it back.", "quantifier": "every text of any length", "why_tests_cant": "the last character and all sizes must be combined", "anchors": ["language/string.go:DecodeCompressCharecter", "language/string.go:Compress", "language/string.go:UnCompress"]}
{"id": "C133", "title": "Files made for the web interface", "statement": "When the web interface is updated, the script, page, service worker and style sheets of every language are made from the source files: each is stored under a name made from the checksum of what is stored, compressed forms hold the same contents, the page names the script, the service worker names the page, the script names the style sheets, and landing pages are localised for every language of their locale file.", "quantifier": "all languages, landing pages, style sheets and contents of the directories", "why_tests_cant": "the contents of the files and the order of the steps are unbounded; stale contents show only after a change", "anchors": ["www/combine.go:update", "www/combine.go:readyAppJSFiles", "www/combine.go:readyDesignLanguagesFiles", "www/combine.go:readyLandingsFiles", "www/combine.go:readySWFile"]}
{"id": "C134", "title": "Compressed forms of a file", "statement": "Compressing a file leaves one file beside it for every known encoding, holding the compressed contents, leaves all other files as they were, and skips media files.", "quantifier": "all files, directories and lists of encodings", "why_tests_cant": "the list of encodings and the directory are unbounded", "anchors": ["file/file.go:Compress"]}
{"id": "C135", "title": "Reading a Go package", "statement": "Reading a Go source file records every type it declares with all its named fields in order, every import under its given name or the last part of its path, and every service function; the last declaration of a name counts; looking up a type comes to an end exactly when the type is not part of itself; a file that is no Go source is an error and changes nothing else.", "quantifier": "all source files, declarations, types nested to any depth", "why_tests_cant": "source files and the types in them are unbounded and types may refer to each other", "anchors": ["go/parser/package.go:Package.Parse", "go/parser/package.go:parseType"]}
{"id": "C136", "title": "TCP segments that arrive over IP change only their own connection", "statement": "Segments that arrive over IPv4 or IPv6 change no entry but those of their own connections, for any number of segments; over IPv6 a segment to a port without a service is refused with an error and changes nothing.", "quantifier": "all packets, tables of connections and histories of packets", "why_tests_cant": "the connections are a map over all addresses and ports and histories are unbounded", "anchors": ["net/ipv4/tcp.go:ReceiveOverIPv4", "net/ipv6/tcp.go:ReceiveTCPOverIPv6"]}
{"id": "C137", "title": "Log events and their levels", "statement": "An event made by one of the makers has the domain, text, stack and time given and the level of its maker, which is that of the logging function of the same name; each level is a bit of its own, 4 to the power of its place; the place of a call is what the run time knows; without a panic nothing is logged.", "quantifier": "all makers, levels, texts and times", "why_tests_cant": "values, listeners and histories are unbounded", "anchors": ["log/panic_handler.go:PanicHandler", "log/log-helpers.go:Trace", "event/target.go:DispatchEvent"]}
{"id": "C138", "title": "Sending frames through the ports of a switch", "statement": "A frame that is sent and is no broadcast goes out unchanged, once, through the connection of the port that its path names for the next hop; a port that is registered is the one the switch has for its number, others stay.", "quantifier": "all switches, ports, paths and frames", "why_tests_cant": "networks, wirings and paths are unbounded and a frame may come back to a switch", "anchors": ["net/chapar/mux.go:Multiplexer.Receive", "net/chapar/mux.go:Multiplexer.Send", "net/chapar/port-bridge.go:BridgePort.Send", "net/chapar/port.go:port.Receive"]}
{"id": "C139", "title": "Fields of call, error and padding frames", "statement": "Every field of a call service, error and padding frame reads back what was written at its documented place, whatever follows, and the next frame is found right behind; handling an error frame gives the registered error.", "quantifier": "all field values, payloads and following frames", "why_tests_cant": "the field values and payloads are unbounded", "anchors": ["net/srpc/frame-call-service.go:ServiceFrame.Payload", "net/srpc/frame-open-stream.go:OpenStreamFrame.ServiceID", "net/l4/frame-data.go:DataFrame.Offset", "net/srpc/frame-error.go:ErrorFrame.ErrorID", "net/sec/frame-signature.go:SignatureFrame.NextFrame"]}
{"id": "C140", "title": "What a reused HTTP message answers", "statement": "After any history of calls with any number of resets, the method, version, URI parts, status, header values and body of a request or response are those set since the last reset; before any reset the first writing of the URI gives the parts set last; a body with a codec passes every call on to it unchanged.", "quantifier": "every history of setting, adding, writing and resetting, of any length", "why_tests_cant": "A test resets an object once or twice; what leaks between uses, or grows with the number of uses, depends on the whole history.", "anchors": ["net/http/request.go Request.Reinit", "net/http/response.go Response.Reinit", "net/http/header.go Header.Reinit", "net/http/body.go body.UnmarshalFrom", "net/uri/uri.go URI.Reinit"]}
{"id": "C141", "title": "Resetting the timing of a TCP stream", "statement": "Keep-alive and user timeout that are reset and then set up have the timing of ones set up for the first time, but for the memory of the last use; a reset keep-alive is off with nothing counted and no time set; a set-up user timeout is on and first due one keep-alive idle time from now.", "quantifier": "every timing, configuration and clock", "why_tests_cant": "A test closes one stream after one set-up; whether any history leads to a stream that can be closed is a question about all of them.", "anchors": ["net/tcp/stream.go Stream.Deinit", "net/tcp/stream-internal.go Stream.close", "net/tcp/stream-timing.go timing.Reinit", "net/tcp/stream-timing-keep_alive.go timingKeepAlive.Reinit", "net/tcp/stream-timing-user_timeout.go timingUserTimeout.Init"]}
{"id": "C142", "title": "JSON over codecs, readers and writers, base64 arrays and floats", "statement": "A JSON codec that takes its text from another codec hands exactly that text to the object and writes exactly it afterwards, and leaves the object alone when the source fails; writing to a writer gives it the object's text once. An array of bytes written as base64 is read back into an array of its length, damaged text is reported and null leaves the array; the minified decoder hands the whole text of a floating point number to the parser; a token is reported once.", "quantifier": "every object, text, reader, writer, codec, array, prefix and rest of the text", "why_tests_cant": "Sources, writers and texts are unbounded and arbitrary; a test tries a few documents.", "anchors": ["json/codec.go Decode, ReadFrom, WriteTo, Marshal", "json/decode.go DecodeByteArrayAsBase64, DecodeFloat64AsNumber, CheckToken", "json/decode-minified.go DecodeByteArrayAsBase64, DecodeFloat64AsNumber"]}
{"id": "C143", "title": "A timer queue's check of its heap", "statement": "The queue's own check of its heap passes exactly for ordered heaps of the counted size, and passes in every queue a program can produce.", "quantifier": "every queue, and every queue a program can produce by Start, Stop, Reset, Tick and scheduler checks", "why_tests_cant": "The set of queue states is unbounded, and moving happens only when cores come and go.", "anchors": ["timer/timing.go Timing.moveTimersTo, moveTimers, MoveToMe, Reinit, verifyTimerHeap", "timer/timing-heap.go Reinit"]}
{"id": "C144", "title": "Timers that signal on a channel, and new timers", "statement": "A signalling timer keeps at most one waiting signal, its scheduler is never held up by it, no more signals are received than the timer fired, and none before a deadline it was armed with; in every queue in which Start returns, a new timer is armed at now + d, or an error is returned exactly when there is no callback or the duration is below one, and then nothing changes.", "quantifier": "every history of calls on the queue, receives and firings", "why_tests_cant": "Interleavings of firings and receives are unbounded.", "anchors": ["timer/timer-sync.go After, NewSync, Sync.Init, Sync.Deinit, Sync.TimerHandler", "timer/timer-async.go NewAsync, Async.Reinit, Async.Deinit"]}
{"id": "C145", "title": "What minification removes", "statement": "Minifying HTML removes exactly the line ends and the comments that end, from the left, and keeps everything else in order; a text is left as it is exactly when it has neither. Minifying a file gives it the minified text, or reports that the file has no text and leaves it.", "quantifier": "every text, every minifier and every file", "why_tests_cant": "The texts are unbounded, and overlaps of comments, ends and line ends depend on the whole text.", "anchors": ["minify/html.go html.Minify, html.MinifyBytes", "minify/css.go css.Minify, css.MinifyBytes", "minify/minify.go Minify"]}
{"id": "C146", "title": "What a program sees of its flags and paths", "statement": "After reading the command line a program can visit the declared flags in their order and the set flags in the order of the command line, up to the first visit that breaks off; the arguments left are answered by their positions, the empty text for others; a set of flags prepared again behaves as a new one; a short path is never longer than the path, and a file is a test exactly when its name says so.", "quantifier": "every declaration of flags, command line, visiting function, chain of commands and list of paths", "why_tests_cant": "Command lines, visitors and paths are unbounded.", "anchors": ["operation/command/flag.go Reinit, NFlag, NArg, Args, Arg, VisitAll, Visit", "operation/command/serve.go Root", "operation/command/path.go ShortPath, RelPaths, IsTestFile"]}
{"id": "C147", "title": "What checking the timers reports, and Sleep", "statement": "A check of the timing queue reports that it ran a timer exactly when a callback ran, and never takes back one that ran; the loop of a timing queue runs again when the time it asked to sleep for is over; Sleep returns at once for a duration that is not positive and otherwise wakes the thread at most once and not before the duration is over, and without periodic timers in the queue exactly once by the first check after that.", "quantifier": "every sequence of timer calls and checks, every clock reading, every duration and period, every number of rounds of the loop", "why_tests_cant": "The answer depends on the whole history of starts, stops and resets and on how late the check comes; a test fixes one history and one lateness.", "anchors": ["timer/timing.go: Timing.Start, checkTimers, runTimer, runOneTimer, noBarrierWakeTime, isCleanNeed", "timer/sleep.go: Sleep", "timer/timer-async.go: Async.Tick"]}
{"id": "C148", "title": "The files and texts of a new page", "statement": "A page that was asked for has its domain and scope, the name chosen or else the name of the scope with the first letter of every word in upper case, and asking again gives the same files; its information block refers to the six texts by their numbers and shows them once localised, when scope, domain and name have no bracket; its new localize file has two languages of seven empty texts; a file of the splash screen is found under its new name only, with its text, and nothing else changes.", "quantifier": "every request: every domain, scope, chosen name and kind of file", "why_tests_cant": "Names and texts are arbitrary byte strings copied into a program text; a test fixes one name.", "anchors": ["modules/gui/services/new-page/logic.go: MakeNewPage", "modules/gui/services/splash-screen/service-make-splash-screen.go: MakeSplashFiles"]}
{"id": "C149", "title": "Stopping a waiting timing wheel stops it", "statement": "Stopping a wheel whose goroutine waits for the next tick says that it was running, after it no tick is served and its goroutine ends by itself; in every history Stop gives exactly this answer then, and panics exactly while the goroutine closes.", "quantifier": "every interleaving of Start, Stop, the ticker and the wheel's goroutine", "why_tests_cant": "The outcome depends on where the goroutine is when Stop is called; a test meets one place.", "anchors": ["timer/timing-wheel/timing-wheel.go: Init, Start, Stop"]}
{"id": "C150", "title": "Ciphers keep secrets and applications have their own keys", "statement": "What a GCM or CCM cipher encrypts is decrypted to the same text, hides the text, depends on the key, and a buffer that was tampered with is refused; AES-256 depends on its key; two applications get different keys.", "quantifier": "every key, block cipher, buffer and block", "why_tests_cant": "All texts and keys are concerned; one example text says nothing about the others.", "anchors": ["crypto/gcm.go: NewGCM, Encrypt, Decrypt", "crypto/ccm.go: NewCCM, Encrypt, Decrypt", "crypto/aes-256.go: NewAES256, Encrypt, Decrypt", "achaemenid/cryptography.go: init"]}
{"id": "C151", "title": "Texts of identifiers, random identifiers and equality", "statement": "The text of an identifier of 8, 16 or 32 bytes tells it from every other of its kind and decodes to its bytes; a random identifier is random in all its bytes; two identifiers are equal exactly when all their bytes are.", "quantifier": "every identifier, text, random source, name space, name, time and machine", "why_tests_cant": "Equality of identifiers is a claim about all pairs.", "anchors": ["identifier/8byte/uuid.go: ToString, FromString, NewRandom, IDasString", "identifier/32byte/uuid.go: ToString, FromString, NewRandom, NewHashString", "identifier/uuid-time-16byte/uuid.go: ToString, FromString", "identifier/rfc-4122/uuid.go: V1, V5, Equal", "identifier/rfc-4122/utility.go: Equal"]}
{"id": "C152", "title": "Pages of an application are found by their path", "statement": "A page registered in an application is found under its path until another page is registered with the same path, the pages are listed in the order of their registration, and activating a page makes it the active one.", "quantifier": "every sequence of registrations and every path", "why_tests_cant": "What is found depends on the whole history of registrations.", "anchors": ["gui/pages.go: RegisterPage, GetPageByPath, Pages", "gui/navigator.go: ActivatePage, ActivePage, HomePage, Pages", "gui/initialize.go: Initialize"]}
{"id": "C153", "title": "Files are sorted by the time they were changed, the newest first", "statement": "Sorting files in descending order keeps every file and puts those changed later before those changed earlier.", "quantifier": "every list of files and every sorting that keeps the promise of the standard library", "why_tests_cant": "The order is a claim about all pairs of all lists.", "anchors": ["os/default/sort.go: SortFilesDec, ByModTime.Less"]}
{"id": "C154", "title": "Checking the type of an action", "statement": "An action type allows exactly the actions it was set to: a mix of actions is allowed when each of them is, the named actions are different from each other, and none and all are the least and the greatest type.", "quantifier": "every pair of action types and every mix of named actions", "why_tests_cant": "There are 2^64 types and as many checks for each.", "anchors": ["operation/protocol/action.go: ActionType.Set, ActionType.Check"]}
{"id": "C155", "title": "Whole minutes, hours, days and weeks of a duration in seconds", "statement": "A duration in seconds is turned into the number of whole minutes, hours, days and weeks in it, below zero too, these numbers agree with each other, and the constants of units agree.", "quantifier": "every duration that an int64 holds, in seconds", "why_tests_cant": "The claim is about all 2^64 durations, also the negative ones.", "anchors": ["time/earth/duration-minute.go: FromNanoSecond, FromSecond", "time/earth/duration-hour.go: FromNanoSecond, FromSecond", "time/earth/duration-day.go: FromNanoSecond, FromSecond", "time/earth/duration-week.go: FromNanoSecond, FromSecond"]}
{"id": "C156", "title": "User information read from a text, and URIs written out", "statement": "User information read from a text is its user name and, after the first colon, its password, and clearing it clears all three; each of the three texts is the one set last, in every history; writing an URI to a writer or a codec hands over its text and returns what the writer returns, and again when it is written again.", "quantifier": "every text, every history of calls and every writer", "why_tests_cant": "Consistency must hold after every sequence of calls.", "anchors": ["net/uri/uri-user_Information.go: Init, Reinit, SetUserinfo, SetUsername, SetPassword", "net/uri/uri.go: WriteTo, Encode, Decode"]}
{"id": "C157", "title": "Errors keep their kind", "statement": "An error is internal, temporary or a timeout exactly when it says so, also after it was wrapped with another error.", "quantifier": "every error and every kind, wrapped or not", "why_tests_cant": "Errors and their chains are unbounded.", "anchors": ["error/error-type.go: IsInternal, IsTemporary, IsTimeout", "error/chain-error.go: NewChain, ChainError"]}
{"id": "C158", "title": "The table of GP connections, and sending over a link", "statement": "The table of connections given first is the one that is used, however often it is initialised again, and a link connection sends a frame through its port, unchanged, the first time and again.", "quantifier": "every frame and every sequence of initialisations", "why_tests_cant": "Frames come from the network and can hold anything.", "anchors": ["net/gp/frame.go: Process", "net/gp/init.go: Init", "net/gp/connection.go: Init, WriteFrame", "net/chapar/connection.go: Send, ReSend"]}
{"id": "C159", "title": "Typed header lines of HTTP messages answer what was added", "statement": "A transfer coding, content coding, cookie text, content type or body length added to a header that has no line of that name is what the typed reader then answers; a header that already has one goes on answering the first; other lines are not changed; lengths up to the largest 64-bit number come back. The time a cookie expires is the one the first of two layouts reads, and setting it changes no other field.", "quantifier": "every header, every added text or length, every history of lines already there, every clock layout", "why_tests_cant": "Tests add one line to an empty header; the interplay of lines already present, repeated lines and unreadable texts ranges over all headers.", "anchors": ["net/http/header-content-length.go ContentLength AddContentLength AddZeroContentLength", "net/http/header-transfer-encoding.go TransferEncoding AddTransferEncoding", "net/http/header-content-encoding.go ContentEncoding AddContentEncoding", "net/http/header-cookie.go Cookies AddCookies", "net/http/header-content-type.go AddContentType", "net/http/header-set-cookie.go GetExpire SetExpire"]}
{"id": "C160", "title": "Lookups in the registry of compress types", "statement": "After any history of registrations of compress types each lookup by identifier, text, extension or encoding answers the type registered last under that key, and the not-found error exactly when nothing has that key; the two built-in compress types are found by every key in either order of initialisation and listed once.", "quantifier": "every history of registrations, every key", "why_tests_cant": "A test registers a few types once; last-wins, not-found and duplicates depend on the whole history.", "anchors": ["mediatypes/media-types.go GetByMediaType GetByID GetByFileExtension", "compress-types/compress-types.go GetByID GetByMediaType GetByFileExtension GetByContentEncoding", "compress/gzip/init.go", "compress/flate/init.go"]}
{"id": "C161", "title": "Comparing numbers and reading them from text", "statement": "Two integers or truth values of one size are equal exactly when they are the same number, two floating point numbers exactly when they have the same value and are no NaN, which is an equivalence on all but NaN; a number written as text is read back by the general reader of its size; the 8, 16 and 32-bit readers refuse texts that are no numbers.", "quantifier": "every pair of bit patterns of every format, every text", "why_tests_cant": "Floating point equality has special values among 2^64 patterns; tests try a handful.", "anchors": ["math/integer/unsigned-8.go Equal FromString", "math/integer/signed.go Equal", "math/float/float-32.go Equal ToString FromString", "math/float/float-64.go Equal ToString FromString"]}
{"id": "C162", "title": "JSON numbers and runtime coding", "statement": "The 32-bit reader reads exactly the numbers that fit and refuses others; slices of numbers written as base64 on a little endian processor come back as groups of bytes, the lowest first, and the encoder panics exactly when the buffer is too small; a floating point number round trips when the standard library's text of it is parsed back and has no byte that ends a value; run-time coding never answers a text with an error and round trips when the standard library does; a decoder that forgets its token is a fresh one over the text left.", "quantifier": "every number, every slice, every buffer capacity, every history of calls on a codec", "why_tests_cant": "Boundaries of 32 bits, the byte order of the machine and the staleness of the length need all values and histories.", "anchors": ["json/decode-minified.go DecodeInt32", "json/encode.go EncodeUInt16SliceAsBase64 EncodeUInt32SliceAsBase64 EncodeFloat32 EncodeFloat64", "json/codec-runtime.go Marshal Unmarshal", "json/codec.go Init Len"]}
{"id": "C163", "title": "Files of an application in all its languages, and reloading", "statement": "Localising a page for all languages gives each language its own texts whatever the order of the languages; the main scripts of all languages are made together, each as if it were the only one; each line R typed in makes the assets once more, and the assets are made at the start exactly when both directories are there.", "quantifier": "every page, every set of languages and texts, every order of iteration, every list of files, every input", "why_tests_cant": "Go iterates over maps in random order, and a missing text in one language out of many is a corner case of all combinations.", "anchors": ["www/html.go localizeHTMLFile", "www/js.go localizeJSFile localeAndMixJSFile", "www/combine.go addLocalized isInlined", "www/assets.go Init ReloadByCLI"]}
{"id": "C164", "title": "Compressing and decompressing through the compress types", "statement": "What the type compresses and decompresses again is what the source held, with its media type, whatever happens to the source later; telling a compressor, or a deflate decompressor, other contents fails, and telling any decompressor other contents never changes its answers; a failing source is reported by deflate.", "quantifier": "every source content, every time it changes, every history of reading and writing calls, both types", "why_tests_cant": "The moment at which the contents are taken and refused writes depend on interleavings with changes of the source.", "anchors": ["compress/gzip/gzip.go Compress Decompress", "compress/flate/deflate.go Compress Decompress", "compress/gzip/compressor.go", "compress/gzip/decompressor.go", "compress/flate/compressor.go", "compress/flate/decompressor.go"]}
{"id": "C165", "title": "A timer is served on whichever core it is started", "statement": "The timing package gives each logical core a queue of its own and runs a loop for it, so that a one-shot timer started on any core runs once its time has come, and what happens on one core does not disturb the timers of another.", "quantifier": "every number of logical cores, every GOMAXPROCS, every history of calls and rounds on any cores", "why_tests_cant": "core counts, affinity masks and GOMAXPROCS differ between machines, and a test runs on one of them; the interleavings of calls on several cores cannot be enumerated", "anchors": ["timer/init.go:init", "timer/timing.go:Init", "cpu/core.go:ActiveCoreID"]}
{"id": "C166", "title": "UTC and wall clock units", "statement": "The minutes, weeks, months of thirty days and tropical years elapsed of a time at or after the epoch are the time since the Unix epoch divided by the unit, rounded down; the current UTC time is the reading of the clock; a time has passed now exactly when its instant is after the clock.", "quantifier": "every normalised time at or after the epoch, every reading of the clock, every time zone", "why_tests_cant": "the divisions hold for all 64-bit second counts and the clock cannot be set to each of them", "anchors": ["time/utc/time.go", "time/unix/time.go:PassNow"]}
{"id": "C167", "title": "The atomic monotonic clock", "statement": "Concurrent additions, swaps and compare-and-swaps on an atomic monotonic time behave as one at a time: no addition is lost, each value is handed to exactly one swap, and exactly one of several equal compare-and-swaps succeeds; until, since and pass now are exact differences while two readings are less than half the range apart.", "quantifier": "every interleaving of every number of operations of any threads, every pair of readings", "why_tests_cant": "interleavings cannot be enumerated by running threads", "anchors": ["time/monotonic/atomic.go", "time/monotonic/time.go"]}
{"id": "C168", "title": "Texts of times", "statement": "The text of a time reads back to the same time, for wall clock, UTC, monotonic and atomic monotonic times.", "quantifier": "every time of each kind and every text", "why_tests_cant": "a round trip over all 64-bit times and all texts cannot be sampled", "anchors": ["time/utc/time.go:ToString", "time/unix/time.go:ToString", "time/monotonic/time.go:ToString", "time/monotonic/atomic.go:ToString"]}
{"id": "C169", "title": "Renaming, copying, moving, wiping and hiding", "statement": "Renaming or moving a path makes the file known under the new path and not the old one, copying makes it known under both, wiping overwrites the contents before it removes the file, all directories of a directory can be listed, and a file or directory is hidden exactly when its name begins with a dot; what cannot be done is an error.", "quantifier": "every tree of directories and files, every path, every answer of the operating system", "why_tests_cant": "trees and paths cannot be enumerated; a no-op that answers success looks right to a caller that checks the error only", "anchors": ["os/default/file-directory.go:Rename", "os/default/file-directory.go:Copy", "os/default/file-directory.go:Move", "os/default/file-directory.go:Wipe", "os/default/file-directory.go:Directories", "os/default/file-meta-data.go:Hidden"]}
{"id": "C170", "title": "Network multiplexers of the operating system", "statement": "Every multiplexer an application registers is known to the network of its header, and shutting the operating system down shuts each registered multiplexer down exactly once.", "quantifier": "every history of registrations and shutdowns, every header identifier", "why_tests_cant": "histories are unbounded and header identifiers are open-ended", "anchors": ["os/default/network-transport-multiplexer.go", "os/default/os.go:Shutdown", "os/persiaos/network-transport-multiplexer.go"]}
{"id": "C171", "title": "Values of TCP options", "statement": "The value of a TCP option as a program reads it from a received segment is the value that was sent, with the width its kind has; a maximum segment size or window scale announced by the peer is in effect for the stream afterwards.", "quantifier": "all kinds of options with a value, all values, all bytes that follow, all sequences of received segments", "why_tests_cant": "The widths of five kinds and every value and following byte must be taken together; a test reads a handful of options at the middle of a segment and never the last one.", "anchors": ["net/tcp/option-mss.go", "net/tcp/option-window-scale.go", "net/tcp/option-cc.go", "net/tcp/option-user_timeout.go", "net/tcp/stream.go:Receive"]}
{"id": "C172", "title": "The ports of a stream", "statement": "The ports of a stream are those it was last set up with, and taking it down keeps them.", "quantifier": "all sequences of settings of ports", "why_tests_cant": "A setting must win over every earlier history of settings; a test sets each once.", "anchors": ["net/tcp/stream-timing-keep_alive.go", "net/tcp/port.go", "net/tcp/stream.go:CloseSending"]}
{"id": "C173", "title": "Writing any codec into any other", "statement": "Encoding a codec into another one, directly or inside bodies of messages, returns; then the destination was handed exactly the contents of the source, or an error tells that it was not.", "quantifier": "all pairs of codecs, all contents, any number of bodies around each", "why_tests_cant": "Each codec writes itself by calling the other codec, so termination is a property of pairs and of nesting of any depth; tests exercise each codec with a single partner.", "anchors": ["net/socket-codec.go:Socket.Encode", "net/stream-codec.go", "json/codec.go:Codec.Encode", "net/uri/uri.go:URI.Encode", "net/chapar/path.go:Path.Encode", "net/http/body.go:body.Encode", "compress/gzip/compressor.go:Compressor.Encode", "compress/flate/decompressor.go:Decompressor.Decode"]}
{"id": "C174", "title": "The routing extension header of IPv6 packets", "statement": "Every field of a routing extension header reads back as it was written, its further data is what the header's length says, and what follows the header is found behind it, so that a chain of headers can be walked. In the code the length is added as bytes, in a byte: behind every header with further data the next one is looked for at the wrong place, and for one length walking never ends.", "quantifier": "all headers, all packets", "why_tests_cant": "Lengths, and the wrap-around of the sum, range over all packets.", "anchors": ["net/ipv6/extension-routing.go: NextHeader, Length, RoutingType, SegmentsLeft, TypeSpecificData, Optional, NextFrame"]}
{"id": "C175", "title": "New tickers", "statement": "Making a ticker arms it at now plus the first duration, with the interval as its period, or returns an error, arms nothing and leaves the timer as it was, the error exactly when there is no callback or a duration is below one; nothing fires and no other timer is changed.", "quantifier": "every queue a program can reach, all durations and clock readings", "why_tests_cant": "The queue can hold any number of timers in any state.", "anchors": ["timer/tick.go: NewSyncTick, NewAsyncTick", "timer/timer-async.go: Tick"]}
{"id": "C176", "title": "Media types made from texts", "statement": "A media type made from a text reads back as the text, has the parts around the first slash as main type and sub type and the identifier of the text; reading its text again gives an equal one; a bad text is an error that changes nothing. In the code a text without a slash panics and leaves a mixed value, and parameters are part of the sub type.", "quantifier": "all texts, all earlier values", "why_tests_cant": "Texts are unbounded.", "anchors": ["mediatype/media-type.go: Init, FromString, ToString, MainType, SubType, parse"]}
{"id": "C177", "title": "Syllab booleans, floating point numbers, complex numbers and fixed arrays round-trip", "statement": "Setting a boolean, a floating point number, a complex number or a fixed byte array and getting it returns what was set, whatever the buffer held. In the code false is not written, floating point numbers go through an integer conversion, the two parts of a complex number overlap, and the getter of fixed arrays returns nothing.", "quantifier": "all buffers, all stack indexes inside the buffer, all values, all pairs of disjoint fields", "why_tests_cant": "Universally quantified over buffer contents, offsets and values, and over all other fields of the frame.", "anchors": ["syllab/encode.go: SetInt*/SetUInt*/SetBool/SetComplex*", "syllab/decode-safe.go: GetInt*/GetUInt*/GetBool/GetComplex*"]}
{"id": "C178", "title": "The Syllab encoder does not truncate contents", "statement": "Encoding a string or array into a buffer whose heap is too short for it does not succeed with a part of the contents: it panics or the decoder gives the whole contents back. The code copies what fits and announces the full length.", "quantifier": "all buffers, all contents that do not fit", "why_tests_cant": "Unbounded payload lengths and field sequences; overlap between fields only shows for particular index combinations.", "anchors": ["syllab/encode.go: SetString, SetByteArray, SetUInt16Array, SetUInt32Array, SetUInt64Array", "syllab/decode-safe.go: GetString, GetByteArray, GetUInt*Array"]}
{"id": "C179", "title": "Per-N calculations for large products and large N", "statement": "The per-N calculators return floor(num*p/N) for all arguments, and those of trillion and quadrillion divide by 10^12 and 10^15. In the code the product wraps around at 2^64, and the per-trillion and per-quadrillion calculators divide by 10^6.", "quantifier": "all 64-bit numbers and all per-N values", "why_tests_cant": "Domain of size 2^64 * 2^k and an overflow boundary.", "anchors": ["math/per/*.go: Calculate"]}
{"id": "C180", "title": "Empty header values and empty names", "statement": "Walking the values of a name reports all of them also when one is empty, and the empty name is read like every other name. In the code the walk stops at the first empty value and the empty name always reads as empty.", "quantifier": "all histories of additions, empty values and the empty name", "why_tests_cant": "Quantifies over all operation histories.", "anchors": ["net/http/header.go: Header_Get, Header_Add, Header_Find, Init, Reinit", "net/http/header-set-cookie.go: SetCookies.Next"]}
{"id": "C181", "title": "A malformed service identifier is refused", "statement": "A request whose query is no service identifier gets 400 and no handler runs. In the code the parser of identifiers reports no error: a malformed query is taken for identifier zero, so that the service with identifier zero runs, or 404 is answered.", "quantifier": "all POST requests with a query that is no valid base64 text, all registries", "why_tests_cant": "All combinations of inputs and registered services.", "anchors": ["net/http/services/service-mux.go: ServeHTTP"]}
{"id": "C182", "title": "Sanitised cookies contain only legal bytes", "statement": "The sanitised cookie value, path and name contain only bytes allowed by the cookie grammar. In the code semicolons survive in values and paths, and every byte but line breaks survives in names.", "quantifier": "all byte strings", "why_tests_cant": "A header-injection property over all strings.", "anchors": ["net/http/header-cookie.go: sanitizeCookieName, sanitizeCookieValue", "net/http/header-set-cookie.go: sanitizeCookiePath"]}
{"id": "C183", "title": "An item the pool has cleaned up is never handed out", "statement": "Get never returns an item whose clean-up function was called, and no item is cleaned up twice. In the code a Get in flight while the pool is closed receives an item that Close has just cleaned up.", "quantifier": "all histories and interleavings of pool operations", "why_tests_cant": "Quantifies over histories.", "anchors": ["pool/lifo.go: Get, Put, popHead, Clean"]}
{"id": "C184", "title": "Reading from a flat buffer returns the unread content", "statement": "Read fills the caller's slice with the next unread bytes, ReadByte returns them one by one up to the last one, ReadAt those at an offset, and reading after Set starts at the front. In the code Read returns no data, the last byte cannot be read and the read position survives Set.", "quantifier": "all contents, all read positions, all lengths asked for", "why_tests_cant": "Quantifies over histories.", "anchors": ["buffer/flat.go: Write, WriteString, WriteByte, Read, ReadByte"]}
{"id": "C185", "title": "The Luhn generator completes every payload", "statement": "The check digit generated for a payload makes the completed number pass the check. In the code this fails for payloads of odd length, and the empty payload panics.", "quantifier": "all digit strings of every length", "why_tests_cant": "Unbounded lengths; error-detection is a statement about all pairs of strings.", "anchors": ["validators/luhn-algorithm.go: LuhnAlgorithm, LuhnAlgorithmChecksum"]}
{"id": "C186", "title": "Adding a duration to a wall-clock time", "statement": "Adding a duration gives the normalised time that lies the duration later, so that the result compares correctly. In the code the nanosecond part is not normalised: it can exceed a second, and adding can move the compared time backwards.", "quantifier": "all times, all durations", "why_tests_cant": "Order laws over the whole domain.", "anchors": ["time/unix/time.go: Pass, Add"]}
{"id": "C187", "title": "Hour of the day, and weekday before the epoch", "statement": "The reported hour bit is that of the UTC hour, the named constants of hours are the bits of these hours, and weekday and hour are right for times before the epoch too. In the code the constants of hours do not fit, and before the epoch weekday and hour are wrong.", "quantifier": "all times before and after the epoch", "why_tests_cant": "Infinite domain with period and offset errors.", "anchors": ["time/utc/time.go: Weekdays, DayHours"]}
{"id": "C188", "title": "Short identifiers, order of identifiers and failures of the random source", "statement": "8-byte identifiers made in the same second differ, identifiers are ordered by creation time as documented, short forms of different identifiers differ, and a failing random source or a bad text is reported. In the code the time overwrites every random byte of 8-byte identifiers, the byte order is not chronological, the short form of a 32-byte identifier is the second, and failures are ignored.", "quantifier": "all times, all random bytes", "why_tests_cant": "All combinations of times and random bytes.", "anchors": ["identifier/16byte/uuid.go", "identifier/32byte/uuid.go", "identifier/8byte/uuid.go"]}
{"id": "C189", "title": "TCP data offset and first flag byte can be set", "statement": "Setting the data offset, or the first byte of flags, and reading it returns the value, whatever the header held. In the code the setters only set bits: a smaller offset or a cleared flag has no effect, and the bits of the old and new offset are combined.", "quantifier": "all buffers, all field values, all pairs of fields", "why_tests_cant": "All pairs of fields over all contents.", "anchors": ["net/tcp/segment.go"]}
{"id": "C190", "title": "Options and payload of a checked TCP segment", "statement": "On every checked segment the options can be read, and header, options and payload make up the segment; a payload written that fits is read back. The code accepts data offsets below the minimum header length, for which reading the options panics.", "quantifier": "all byte strings", "why_tests_cant": "A remote-crash property over all inputs.", "anchors": ["net/tcp/segment.go: CheckSegment, Options, Payload"]}
{"id": "C191", "title": "Header fields that share a byte, and lengths announced in headers", "statement": "Fields that share a byte with another one (IPv4 version and header length, DSCP and congestion marks, fragment flags and offset; IPv6 version, traffic class and flow label) can be set without disturbing each other, the UDP length written is the length read, the UDP payload ends where the length says, and complete packets pass the check. The code violates each of these.", "quantifier": "all packets, all field values", "why_tests_cant": "All pairs of fields over all contents.", "anchors": ["net/ipv4/packet.go", "net/ipv6/packet.go", "net/udp/packet.go", "net/gp/frame.go", "net/gp/address.go"]}
{"id": "C192", "title": "Chapar frames that pass the check are safe, and broadcast frames can be made", "statement": "A frame that passes the check never crashes the receiver or loses its header, and a frame initialised without a path is a broadcast frame whose path can be asked for. In the code a hop number past the end of the frame panics, the ports of the hops from 253 on are stored over the header, and no frame initialised without a path is a broadcast frame.", "quantifier": "all frames that pass the check", "why_tests_cant": "All frame contents and hop sequences.", "anchors": ["net/chapar/frame.go: CheckFrame, IncrementNextHop, SetPortNum, Path", "net/chapar/mux.go: Receive"]}
{"id": "C193", "title": "An error with identifier zero is refused", "statement": "Registering an error whose identifier is zero is refused, in developer mode or not. Outside developer mode the code accepts it and it can never be found by its identifier.", "quantifier": "all histories, both modes", "why_tests_cant": "Quantifies over histories.", "anchors": ["errors/errors.go: Register, UnRegister, GetByID, GetByMediaType"]}
{"id": "C194", "title": "Service registry: duplicates are reported, the two indexes agree, the list is complete", "statement": "Registering a service whose identifier or media type is in use is reported, both indexes name the same service, and the list of services holds the registered services and no others. In the code duplicates are not reported, the indexes can disagree, and the list begins with 512 nil services and keeps deleted ones.", "quantifier": "all histories of register/delete", "why_tests_cant": "Quantifies over histories.", "anchors": ["operation/services/services.go: Register, Delete, GetByID, GetByMediaType"]}
{"id": "C195", "title": "Every value can be given to every flag on the command line", "statement": "An empty value can be written for a flag, and every declared flag can be set by its name. In the code -name= takes the next argument as value, and a flag whose name is the abbreviation of an earlier one can never be set.", "quantifier": "all declarations, all flags, all values", "why_tests_cant": "Unbounded argument lists.", "anchors": ["operation/command/flag.go: Parse, parseOne, checkAndSet, Set, Lookup"]}
{"id": "C196", "title": "JSON: negative numbers, quotes, empty lists and unknown members", "statement": "Negative numbers, strings with quote characters, empty lists and lists after other values are read back as they were written, members the reader does not know are skipped, and cut-off text is refused. In the code the ordinary decoder drops signs, quotes are not escaped, empty lists are damaged when written and misread, an end token of an earlier list ends the next one, and unknown members can be misread.", "quantifier": "all values, all continuations", "why_tests_cant": "Unbounded strings, arrays and continuations.", "anchors": ["json/encode.go", "json/decode.go", "json/decode-minified.go"]}
{"id": "C197", "title": "Localised HTML pages", "statement": "For an HTML page made of text pieces and placeholders the localised page is the concatenation of the pieces with the placeholder texts, and bad placeholders do not crash the program. In the code the closing brace of every placeholder stays in the page, and a placeholder without a text, or never closed, panics.", "quantifier": "all pages, all text tables", "why_tests_cant": "Unbounded pages.", "anchors": ["www/html.go: replaceLocalizeTextInHTML", "www/js.go: replaceLocalizeTextInJS"]}
{"id": "C198", "title": "Parsing the text of a signed integer", "statement": "Printing a signed integer and parsing the text gives the value back. In the code parsing a signed integer stores nothing and reports no error, at every width.", "quantifier": "all values of every width, all previous receiver values", "why_tests_cant": "Every value of every width.", "anchors": ["math/boolean/boolean.go: ToString, FromString", "math/integer/signed*.go: ToString, FromString"]}
{"id": "C199", "title": "Content types with one parameter", "statement": "A content type 'type/subtype; parameter' is taken apart into its parts: the type and subtype are those of the known names and unset for all others, and the value of a charset or boundary is returned whole.", "quantifier": "all texts without slash and semicolon as type, subtype and value", "why_tests_cant": "All 64-bit lengths and all strings.", "anchors": ["net/http/header-content-length.go", "net/http/header-content-type.go: FromString"]}
{"id": "C200", "title": "A Tick that returns an error changes nothing", "statement": "A Tick that reports an error leaves all timers as they were. In the code the period is set before Start refuses, so that a running one-shot timer becomes periodic.", "quantifier": "all queue states a program can produce", "why_tests_cant": "Quantifies over histories.", "anchors": ["timer/timer-async.go: Start, Stop, Reset, Tick"]}
{"id": "C201", "title": "A pool with an idle item serves a request", "statement": "Get returns an item whenever an idle one is in the pool. The code withholds items the cleaner has set aside.", "quantifier": "all histories of pool operations", "why_tests_cant": "Quantifies over histories.", "anchors": ["pool/lifo.go: Get, makeNew, Clean"]}
{"id": "C202", "title": "Extending the length of a buffer", "statement": "GrowLen(n) returns the old length and extends the length by n zero bytes after the content. In the code a nil buffer keeps the length zero, and stale bytes of earlier content appear.", "quantifier": "all buffers (content, length, capacity), all n", "why_tests_cant": "All capacities and stale contents.", "anchors": ["buffer/flat.go: Grow, GrowLen, Reset"]}
{"id": "C203", "title": "Writing IPv6 addresses, '::' and bad texts", "statement": "Writing an address gives its canonical text, '::' is read as the unspecified address and a bad text is reported. The code panics when writing any address but the unspecified one, leaves the variable unchanged for '::' and never reports an error.", "quantifier": "all addresses, all group texts and ellipsis positions, all earlier contents of the variable", "why_tests_cant": "2^128 addresses and unboundedly many texts; a test tries a handful", "anchors": ["net/ipv6/addr.go: ToString, FromString, FromIPv4, IsGlobalUnicast"]}
{"id": "C204", "title": "Chapar connections use the right path", "statement": "A connection made from a received frame knows the path the frame came by and sends back along its reverse; changing to an alternative uses it. In the code the path from the peer is the whole frame with its header, every frame written announces 255 hops, and the chosen alternative is overwritten.", "quantifier": "all frames, connections and histories of path additions", "why_tests_cant": "All histories and path contents.", "anchors": ["net/chapar/connection.go: init, WriteFrame, SetAlternativePath, ChangePath"]}
{"id": "C205", "title": "A command called without words shows its help", "statement": "A command that has a sub command named help, called without further words, runs that sub command. In the code the call panics, whatever the sub command does.", "quantifier": "all command trees", "why_tests_cant": "command trees and argument lists are unbounded", "anchors": ["operation/command/command.go: Command.SubCommand", "operation/command/serve.go: ServeCLA, CommandPath"]}
{"id": "C206", "title": "File names: name without extension, kinds of paths and path parts", "statement": "Name without extension, dot and extension give the name; a file is not a directory; the parts of a path contain no slash; reading another path into a file URI replaces all its parts. The code keeps the dot, reports every file in a directory as a directory, mishandles double slashes and keeps the old extension.", "quantifier": "all paths, names and contents", "why_tests_cant": "names are unbounded and the faults depend on where dots and slashes are", "anchors": ["file/uri.go: URI.Init, URI.NameWithoutExtension, URI.IsDirectory, URI.Unmarshal, Extension, FilePathParts, IsPathDirectory", "file/file.go: AddHashToFileName"]}
{"id": "C207", "title": "Bare names and paths above the root", "statement": "A bare name finds the file in the same directory, and a path that goes above the root finds nothing. In the code a bare name is never found and going above the root panics.", "quantifier": "all trees, all directories, all relative paths", "why_tests_cant": "trees and paths are unbounded", "anchors": ["file/file.go: FindByRelativeFrom"]}
{"id": "C208", "title": "A combined script holds each module after the modules it imports", "statement": "In the combined script each module stands after the modules it imports, a script may begin with an import statement, and inlining a single script adds its imports. In the code a module imported twice can be placed before its own imports, a script that begins with an import statement panics, and the recursive inliner adds no imports.", "quantifier": "every import graph, every script text", "why_tests_cant": "Import graphs are unbounded and may be cyclic; the order fails only for shared modules.", "anchors": ["www/js.go extractJSImports", "www/js.go extractJSImportsRecursively", "www/combine.go readyAppJSFiles", "www/combine.go addLocalized", "www/js.go addJSToJSRecursively"]}
{"id": "C209", "title": "Pages reach the scripts of an application", "statement": "A page is put in the slot of its script whatever the script looks like, and the combined script of an application holds the page. In the code a page lands before the slot when there is no grave accent, the script is lost when there is no slot, and the page never reaches the combined script.", "quantifier": "every script, page and style sheet", "why_tests_cant": "The texts are arbitrary.", "anchors": ["www/css.go mixCSSToHTML", "www/css.go mixCSSToJS", "www/html.go mixHTMLToJS", "www/js.go localeAndMixJSFile"]}
{"id": "C210", "title": "TCP keep-alive: number of probes and time between them", "statement": "An idle stream is probed as many times as configured and then closed, and the next check is due one interval after the last. The code sends one probe more than configured and subtracts lateness from the next interval.", "quantifier": "all clock readings, all histories of due checks", "why_tests_cant": "Quantifies over clocks and histories.", "anchors": ["net/tcp/stream-timing-keep_alive.go: CheckInterval", "net/tcp/stream-timing-user_timeout.go: CheckInterval"]}
{"id": "C211", "title": "A refused start or close leaves a pool as it was", "statement": "An Init or Close that is refused (it panics) leaves the pool as it was. The code swaps the state before it looks: a refused Init brings a closed pool back to life, and Close of a pool never started makes it unusable.", "quantifier": "every pool state", "why_tests_cant": "the misuse orders and recoveries are not enumerable, and the effect shows only in later calls", "anchors": ["pool/lifo.go LIFO.Init", "pool/lifo.go LIFO.Close", "pool/lifo.go LIFO.SetState"]}
{"id": "C212", "title": "Reading a URI never panics", "statement": "Reading any text as a URI returns. The code panics exactly on the empty text and when the first colon before any space has fewer than two bytes after it.", "quantifier": "all byte strings", "why_tests_cant": "texts from the network are unbounded and adversarial", "anchors": ["net/uri/uri.go URI.UnmarshalFromString", "net/uri/uri.go URI.UnmarshalFrom"]}
{"id": "C213", "title": "Colons, semicolons and the first error of a query", "statement": "Settings with a colon are accepted, settings with a raw semicolon are invalid, and the returned error is the first decoding error. The code refuses the colon instead of the semicolon, and a bad key hides an earlier error.", "quantifier": "all query texts, all previous contents", "why_tests_cant": "all texts and error positions", "anchors": ["net/uri/uri-query.go Query.FromString", "net/uri/const.go sign_Semicolon"]}
{"id": "C214", "title": "A query that was never initialised can be changed", "statement": "Set and Add on a zero Query work like on an empty one. The code panics.", "quantifier": "all keys and values", "why_tests_cant": "unbounded histories", "anchors": ["net/uri/uri-query.go Query.Set", "net/uri/uri-query.go Query.Add", "net/uri/uri-query.go Query.Del", "net/uri/uri-query.go Query.Get", "net/uri/uri-query.go Query.Has"]}
{"id": "C215", "title": "An age of zero of a Set-Cookie value", "statement": "As documented, an age of zero means that there is no Max-Age attribute. The code writes Max-Age=0, which tells the peer to delete the cookie.", "quantifier": "every cookie", "why_tests_cant": "ages are unbounded and every combination of attributes must round trip", "anchors": ["net/http/header-set-cookie.go SetMaxAge GetMaxAge SetSameSite GetSameSite AddSetCookie"]}
{"id": "C216", "title": "Errors of a response, and redirecting twice", "statement": "An error set on a response is the error the peer reads, and redirecting a response that already names a Location changes the target. In the code the error identifier is written as base64 and read as decimal, so it is never read back, and the first Location stays.", "quantifier": "every response, every status text, every error identifier", "why_tests_cant": "identifiers and texts range over unbounded or 64-bit domains", "anchors": ["net/http/response.go GetStatusCode GetError SetError Redirect SetStatusByError", "net/http/const.go GetStatusText"]}
{"id": "C217", "title": "The length of a response is announced exactly once", "statement": "Every response sent carries exactly one statement of the body's length: Content-Length 0 without a body, and only the handler's own when the handler set one. In the code a response without a body is announced as chunked, and a length set by the handler is announced twice.", "quantifier": "every response, header and body", "why_tests_cant": "headers and lengths are unbounded", "anchors": ["net/http/v1/handler.go HandleOutcomeResponse", "net/http/body.go Body Len MediaType CompressType", "net/http/header-content-length.go AddContentLength"]}
{"id": "C218", "title": "Strings made from or converted to bytes do not change", "statement": "A Go string never changes. Storing to the byte slice made from a string without a copy changes the string.", "quantifier": "every string, every memory, every index stored to", "why_tests_cant": "memory contents and slice bounds are unbounded", "anchors": ["convert/convert.go:UnsafeByteSliceToString"]}
{"id": "C219", "title": "Listings page by page", "statement": "A listing with an offset and a limit starts at the offset and holds at most as many files as the limit. In the code both are ignored.", "quantifier": "every directory, offset and limit", "why_tests_cant": "the iteration order of a map is not under a test's control", "anchors": ["os/default/file-directory.go:Files", "os/default/file-directory.go:FindFiles"]}
{"id": "C220", "title": "Appending to files, saving and deleting them", "statement": "Bytes appended or prepended to a file are part of it, saving writes the content to the path of that file, the compress type says how the content is compressed, and deleting removes exactly that file. In the code bytes appended to a file not yet read are lost, a file made by its name is written to the wrong path, and unknown compress types are taken on without compressing.", "quantifier": "every file, content and tree", "why_tests_cant": "contents and trees are unbounded", "anchors": ["os/default/file.go:Append", "os/default/file.go:Save"]}
{"id": "C221", "title": "Time limits of waiting, sending and closing of sockets", "statement": "Waiting for a message ends when its time limit has passed, sending returns once the bytes are sent, and closing ends. In the code an expired limit is ignored, sending any data never returns, and closing calls itself without end.", "quantifier": "every sequence of states, every data", "why_tests_cant": "non-termination cannot be observed by a test", "anchors": ["net/socket-codec.go:Unmarshal", "net/socket-codec.go:Marshal"]}
{"id": "C222", "title": "Starting and stopping an application", "statement": "A started application is running, each of the four signals to stop stops it, every status change reaches every listener, every part's failure at the start is reported, and one stop is announced once. In the code an application never becomes running, so that no signal stops it; changes are dropped for listeners without room, the error of the cryptography is dropped and stopping is announced twice.", "quantifier": "every history of events, every set of listeners, every outcome of the parts", "why_tests_cant": "histories and fill states of channels are unbounded", "anchors": ["achaemenid/application.go:Init", "achaemenid/status.go:changeState"]}
{"id": "C223", "title": "Every status change of a stream reaches a watcher", "statement": "Each change of the status of a stream reaches whoever watches it. In the code a change that happens while the watcher is not waiting is lost.", "quantifier": "every stream and every change", "why_tests_cant": "schedules are unbounded", "anchors": ["net/tcp/stream-status.go:CompareAndSwap", "net/tcp/stream-status.go:notify"]}
{"id": "C224", "title": "Elapsed periods given in nanoseconds, and time since", "statement": "The number of elapsed periods of a length in nanoseconds is the elapsed time divided by the period, and the time since another moment is the difference of the two. In the code periods that are not whole seconds are counted wrongly, and the time since is not the difference.", "quantifier": "every time and every period", "why_tests_cant": "both ranges are 64 bit", "anchors": ["time/unix/time.go:ElapsedByNanoSecond", "time/unix/time.go:ElapsedBySecond", "time/unix/time.go:Since"]}
{"id": "C225", "title": "Names of sets of days", "statement": "A set of several days is printed as its days. The code prints nothing for it, in every language.", "quantifier": "every 8 bit set of days and both languages", "why_tests_cant": "sets of days are rarely enumerated", "anchors": ["time/utc/weekday.go:String"]}
{"id": "C226", "title": "Fields of unsupported types are refused", "statement": "A field of a type without support is refused with an error, embedded fields take part, and arrays whose length is a constant expression are encoded. In the code fields of unsupported types are left out silently, embedded fields are ignored, and a length that is no literal panics.", "quantifier": "every struct type", "why_tests_cant": "the set of Go types is unbounded", "anchors": ["syllab/generator.go:syllabMaker.make", "syllab/generator.go:checkFieldTag"]}
{"id": "C227", "title": "Unknown encodings of compressed forms are reported", "statement": "Compressing a file reports encodings that are not known. The code reports nothing and leaves them out.", "quantifier": "all files, directories and lists of encodings", "why_tests_cant": "the list of encodings and the directory are unbounded", "anchors": ["file/file.go:Compress"]}
{"id": "C228", "title": "Reading a Go package: test files, recursive types and all functions", "statement": "Test files are left out, reading ends also for types that are part of themselves, and fields without names, grouped parameters, results and methods are recorded as they are declared. The code violates each of these.", "quantifier": "all source files, declarations, types nested to any depth", "why_tests_cant": "source files and the types in them are unbounded and types may refer to each other", "anchors": ["go/parser/package.go:Package.Parse", "go/parser/package.go:parseType"]}
{"id": "C229", "title": "Fields of open stream, data and signature frames", "statement": "Every field of an open stream, data and signature frame reads back what was written at its documented place, the next frame is found right behind, and the data of data frames reaches the socket. In the code offsets lose half their bytes, data never reaches the socket, and the fields and lengths of open stream and signature frames are read at wrong places.", "quantifier": "all field values, payloads and following frames", "why_tests_cant": "the field values and payloads are unbounded", "anchors": ["net/srpc/frame-call-service.go:ServiceFrame.Payload", "net/srpc/frame-open-stream.go:OpenStreamFrame.ServiceID", "net/l4/frame-data.go:DataFrame.Offset", "net/srpc/frame-error.go:ErrorFrame.ErrorID", "net/sec/frame-signature.go:SignatureFrame.NextFrame"]}
{"id": "C230", "title": "What a reused HTTP message writes", "statement": "A request or response that is reset and filled again writes exactly what a new one would, and a message body without contents takes and loses nothing. In the code the header lines of earlier uses stay as blank lines, a reused request writes no URI, and a body without codec drops the remaining data.", "quantifier": "every history of setting, adding, writing and resetting, of any length", "why_tests_cant": "A test resets an object once or twice; what leaks between uses, or grows with the number of uses, depends on the whole history.", "anchors": ["net/http/request.go Request.Reinit", "net/http/response.go Response.Reinit", "net/http/header.go Header.Reinit", "net/http/body.go body.UnmarshalFrom", "net/uri/uri.go URI.Reinit"]}
{"id": "C231", "title": "JSON over readers and writers: counts, errors, lengths and signs", "statement": "A JSON codec reports how many bytes it took, reading from a reader decodes what the reader holds, writing reports an object that cannot be encoded; text of another length than the array is refused; the sign of a floating point number is read. In the code the count is zero, nothing is decoded from a reader, errors are dropped, other lengths are accepted or panic and signs are passed over.", "quantifier": "every object, text, reader, writer, codec, array, prefix and rest of the text", "why_tests_cant": "Sources, writers and texts are unbounded and arbitrary; a test tries a few documents.", "anchors": ["json/codec.go Decode, ReadFrom, WriteTo, Marshal", "json/decode.go DecodeByteArrayAsBase64, DecodeFloat64AsNumber, CheckToken", "json/decode-minified.go DecodeByteArrayAsBase64, DecodeFloat64AsNumber"]}
{"id": "C232", "title": "Moving timers to another core and emptying a timer queue", "statement": "Moving the timers of one core to another core's queue, and setting a queue up again, return; every armed timer keeps its deadline and stopped timers are set free, and the queue they came from can be used afterwards. In the code moving an armed timer never returns, moving to the same core neither, and moved stopped timers stay in the old queue.", "quantifier": "every queue a program can produce by Start, Stop, Reset, Tick and scheduler checks, and either choice of receiving core", "why_tests_cant": "The set of queue states is unbounded, and moving happens only when cores come and go.", "anchors": ["timer/timing.go Timing.moveTimersTo, moveTimers, MoveToMe, Reinit, verifyTimerHeap", "timer/timing-heap.go Reinit"]}
{"id": "C233", "title": "Taking signalling timers down and setting timers up again", "statement": "Taking a signalling timer down stops it and closes the channel once, and a timer that was set up again can be started again. In the code taking down twice panics, taking down a timer that was never started or has fired reports an error and does not close the channel, and a timer set up again can never be started.", "quantifier": "every history of calls on the queue, receives and firings", "why_tests_cant": "Interleavings of firings and receives are unbounded.", "anchors": ["timer/timer-sync.go After, NewSync, Sync.Init, Sync.Deinit, Sync.TimerHandler", "timer/timer-async.go NewAsync, Async.Reinit, Async.Deinit"]}
{"id": "C234", "title": "Minification keeps the words of a text and reports errors", "statement": "Minifying HTML twice gives what minifying once gives, words on different lines stay apart, and a text the minifier rejects is reported and the file left as it is. In the code lines are joined without a blank, removing a comment can make another one, and a rejected text is replaced by the empty one without an error.", "quantifier": "every text, every minifier and every file", "why_tests_cant": "The texts are unbounded, and overlaps of comments, ends and line ends depend on the whole text.", "anchors": ["minify/html.go html.Minify, html.MinifyBytes", "minify/css.go css.Minify, css.MinifyBytes", "minify/minify.go Minify"]}
{"id": "C235", "title": "The number of set flags and the root command", "statement": "The number of set flags and the root of a command are answered as documented. The code answers the number of declared flags, and asking for the root never ends.", "quantifier": "every declaration of flags, command line, visiting function, chain of commands and list of paths", "why_tests_cant": "Command lines, visitors and paths are unbounded.", "anchors": ["operation/command/flag.go Reinit, NFlag, NArg, Args, Arg, VisitAll, Visit", "operation/command/serve.go Root", "operation/command/path.go ShortPath, RelPaths, IsTestFile"]}
{"id": "C236", "title": "The time until the next timer, and the loop that runs the timers", "statement": "A check answers the time of the next armed timer (later than now) or 0 when none is armed; the loop of a timing queue therefore runs each callback at its deadline, and a periodic timer runs once per period. In the code the answer can name a timer that was stopped or reset, an idle loop never sleeps, a timer started while the loop sleeps runs late, and late periodic timers drift or run again and again.", "quantifier": "every sequence of timer calls and checks, every clock reading, every duration and period, every number of rounds of the loop", "why_tests_cant": "The answer depends on the whole history of starts, stops and resets and on how late the check comes; a test fixes one history and one lateness.", "anchors": ["timer/timing.go: Timing.Start, checkTimers, runTimer, runOneTimer, noBarrierWakeTime, isCleanNeed", "timer/sleep.go: Sleep", "timer/timer-async.go: Async.Tick"]}
{"id": "C237", "title": "Stopping a busy, a new or a stopped timing wheel", "statement": "Stopping a wheel that serves a tick says that it was running, after a stop no tick is served, a wheel stopped before it is started does not start, one started again can be stopped again, and stopping never panics. The code violates each of these.", "quantifier": "every interleaving of Start, Stop, the ticker and the wheel's goroutine", "why_tests_cant": "The outcome depends on where the goroutine is when Stop is called; a test meets one place.", "anchors": ["timer/timing-wheel/timing-wheel.go: Init, Start, Stop"]}
{"id": "C238", "title": "Reading identifiers from text, and identifiers made from names and times", "statement": "Reading the text of an identifier gives it back, a failing random source is reported, and identifiers made from a name, or from a time and a machine, differ when these do and have the version of their kind. In the code reading leaves every identifier as it was, failures are ignored, and versions 1 and 5 are all zero.", "quantifier": "every identifier, text, random source, name space, name, time and machine", "why_tests_cant": "Equality of identifiers is a claim about all pairs.", "anchors": ["identifier/8byte/uuid.go: ToString, FromString, NewRandom, IDasString", "identifier/32byte/uuid.go: ToString, FromString, NewRandom, NewHashString", "identifier/uuid-time-16byte/uuid.go: ToString, FromString", "identifier/rfc-4122/uuid.go: V1, V5, Equal", "identifier/rfc-4122/utility.go: Equal"]}
{"id": "C239", "title": "Whole minutes, hours, days and weeks of a duration in nanoseconds", "statement": "A duration in nanoseconds is turned into the number of whole minutes, hours, days and weeks in it. The code counts it as if it were in seconds.", "quantifier": "every duration that an int64 holds, in nanoseconds", "why_tests_cant": "The claim is about all 2^64 durations, also the negative ones.", "anchors": ["time/earth/duration-minute.go: FromNanoSecond, FromSecond", "time/earth/duration-hour.go: FromNanoSecond, FromSecond", "time/earth/duration-day.go: FromNanoSecond, FromSecond", "time/earth/duration-week.go: FromNanoSecond, FromSecond"]}
{"id": "C240", "title": "Setting parts of user information, and reading an URI from a codec", "statement": "Setting the name or password of user information changes its text accordingly, and setting the text its parts; reading an URI from a codec reads it. In the code the three texts are set separately and nothing is read from a codec.", "quantifier": "every text, every history of calls and every writer", "why_tests_cant": "Consistency must hold after every sequence of calls.", "anchors": ["net/uri/uri-user_Information.go: Init, Reinit, SetUserinfo, SetUsername, SetPassword", "net/uri/uri.go: WriteTo, Encode, Decode"]}
{"id": "C241", "title": "Bad or repeated typed header lines are refused", "statement": "A second length, a length that is no number or a time of expiry that is no time is refused; the cookies of a header are all answered, and the last of a list of codings too. In the code two lengths are sent, bad ones read as zero, and the last cookie and single codings are lost.", "quantifier": "every header, every added text or length, every history of lines already there, every clock layout", "why_tests_cant": "Tests add one line to an empty header; the interplay of lines already present, repeated lines and unreadable texts ranges over all headers.", "anchors": ["net/http/header-content-length.go ContentLength AddContentLength AddZeroContentLength", "net/http/header-transfer-encoding.go TransferEncoding AddTransferEncoding", "net/http/header-content-encoding.go ContentEncoding AddContentEncoding", "net/http/header-cookie.go Cookies AddCookies", "net/http/header-content-type.go AddContentType", "net/http/header-set-cookie.go GetExpire SetExpire"]}
{"id": "C242", "title": "Lookups of media types, and the list of encodings", "statement": "After any history of registrations each lookup of a media type answers the one registered last, and an error exactly when nothing has the key; the list of encodings names each encoding once. In the code a media type that is not there is answered without an error, and an encoding registered twice is listed twice.", "quantifier": "every history of registrations, every key", "why_tests_cant": "A test registers a few types once; last-wins, not-found and duplicates depend on the whole history.", "anchors": ["mediatypes/media-types.go GetByMediaType GetByID GetByFileExtension", "compress-types/compress-types.go GetByID GetByMediaType GetByFileExtension GetByContentEncoding", "compress/gzip/init.go", "compress/flate/init.go"]}
{"id": "C243", "title": "Equality across sizes and of NaN, and damaged texts of numbers", "statement": "The same number held in two sizes is equal to itself, equality is reflexive, and texts in an unknown base or damaged texts of floating point numbers are refused. The code violates each of these.", "quantifier": "every pair of bit patterns of every format, every text", "why_tests_cant": "Floating point equality has special values among 2^64 patterns; tests try a handful.", "anchors": ["math/integer/unsigned-8.go Equal FromString", "math/integer/signed.go Equal", "math/float/float-32.go Equal ToString FromString", "math/float/float-64.go Equal ToString FromString"]}
{"id": "C244", "title": "JSON of numbers between processors, of values that are no numbers, and the length of a codec", "statement": "Slices of numbers written as base64 are the same text on every processor, NaN and infinities are written as JSON or refused, and a codec tells the length of its object. In the code the text depends on the byte order, NaN and infinities are written as no JSON, and the length is that of the first state of the object.", "quantifier": "every number, every slice, every buffer capacity, every history of calls on a codec", "why_tests_cant": "Boundaries of 32 bits, the byte order of the machine and the staleness of the length need all values and histories.", "anchors": ["json/decode-minified.go DecodeInt32", "json/encode.go EncodeUInt16SliceAsBase64 EncodeUInt32SliceAsBase64 EncodeFloat32 EncodeFloat64", "json/codec-runtime.go Marshal Unmarshal", "json/codec.go Init Len"]}
{"id": "C245", "title": "Missing texts of a language, and the end of the reload input", "statement": "A page localised for all languages is made for those that have its texts, a file that has no texts in a language is used plain, a script without texts does no harm, and reloading ends with its input. In the code a missing text panics, such a file is left out, one script without texts panics in production, and the loop at the end of its input never stops.", "quantifier": "every page, every set of languages and texts, every order of iteration, every list of files, every input", "why_tests_cant": "Go iterates over maps in random order, and a missing text in one language out of many is a corner case of all combinations.", "anchors": ["www/html.go localizeHTMLFile", "www/js.go localizeJSFile localeAndMixJSFile", "www/combine.go addLocalized isInlined", "www/assets.go Init ReloadByCLI"]}
{"id": "C246", "title": "Gzip decompressors refuse other contents and report failing sources", "statement": "A gzip decompressor refuses to be told other contents, and reports a source that fails. The code accepts the contents without an error and never answers them, and answers a failing source with empty contents.", "quantifier": "every source content, every time it changes, every history of reading and writing calls, both types", "why_tests_cant": "The moment at which the contents are taken and refused writes depend on interleavings with changes of the source.", "anchors": ["compress/gzip/gzip.go Compress Decompress", "compress/flate/deflate.go Compress Decompress", "compress/gzip/compressor.go", "compress/gzip/decompressor.go", "compress/flate/compressor.go", "compress/flate/decompressor.go"]}
{"id": "C247", "title": "The documented epoch, the calendar year and the local time", "statement": "The units elapsed of a UTC time are counted from the documented epoch, and the calendar year and the local time follow the time. In the code they are counted from the Unix epoch, and the calendar year and local time are always zero.", "quantifier": "every normalised time at or after the epoch, every reading of the clock, every time zone", "why_tests_cant": "the divisions hold for all 64-bit second counts and the clock cannot be set to each of them", "anchors": ["time/utc/time.go", "time/unix/time.go:PassNow"]}
{"id": "C248", "title": "Updating the atomic clock by a read and a store", "statement": "Reading the atomic clock and storing what was read plus a duration adds the duration, whatever other threads do. An addition of another thread in between is lost.", "quantifier": "every interleaving of every number of operations of any threads, every pair of readings", "why_tests_cant": "interleavings cannot be enumerated by running threads", "anchors": ["time/monotonic/atomic.go", "time/monotonic/time.go"]}
{"id": "C249", "title": "Cookies with empty values, cookie headers and adding cookies", "statement": "A cookie with an empty value is read back; walking a Cookie header reports every cookie in order and never panics; adding cookies to a header writes them all. The code loses empty values, loses the last cookie of every header, panics on header lines chosen by a peer and panics on every addition.", "quantifier": "all cookies, all lists of cookies, all header lines", "why_tests_cant": "Unbounded strings and lists.", "anchors": ["net/http/header-cookie.go: Marshal, Unmarshal, UnmarshalFrom, Next, AddCookie"]}
{"id": "C250", "title": "The keep alive of a stream and closing its sending side", "statement": "What a program sets on a stream (keep alive on or off, its idle time and interval, that it sends no more) is what is in effect afterwards, whatever was set before. In the code no call changes the idle time and the interval, and closing the sending side does nothing.", "quantifier": "all sequences of settings, all durations, all statuses of the stream", "why_tests_cant": "A setting must win over every earlier history of settings; a test sets each once.", "anchors": ["net/tcp/stream-timing-keep_alive.go", "net/tcp/port.go", "net/tcp/stream.go:CloseSending"]}
{"id": "C251", "title": "Escaped hosts and zone identifiers can be unescaped", "statement": "A host name or zone identifier that was escaped can be unescaped and is the same. In the code the decoder refuses what the encoder wrote for every name with a byte that needs a percent sign (except those that hosts allow).", "quantifier": "all byte strings, both host modes", "why_tests_cant": "Infinite input space; correctness depends on the interplay of the escape set with '+' and '%' handling.", "anchors": ["net/uri/escape.go: Escape, Unescape, shouldEscape, ishex, unhex"]}
{"id": "C252", "title": "A configured domain that starts with a digit", "statement": "A request for the configured domain passes the host check whatever the domain is. In the code a domain that starts with a digit is redirected to itself, without end.", "quantifier": "all domains, paths and queries", "why_tests_cant": "Security decision over all strings.", "anchors": ["net/http/services/host-supported.go: ServeHTTP"]}
{"id": "C253", "title": "Seconds that do not fit a nanosecond duration", "statement": "Combining seconds and nanoseconds that do not fit a 64-bit duration is reported. The code wraps around.", "quantifier": "all seconds and nanoseconds", "why_tests_cant": "2^64 values with sign boundary.", "anchors": ["time/duration/nano-second.go: ToSecAndNano, FromSecAndNano"]}
{"id": "C254", "title": "Parsing RFC 4122 identifiers", "statement": "Parsing the text of an identifier gives the identifier, and a text that is none is refused. In the code parsing changes nothing, the helper answers the zero identifier, and a short text panics.", "quantifier": "all texts and identifiers", "why_tests_cant": "2^128 values.", "anchors": ["identifier/rfc-4122/*.go"]}
{"id": "C255", "title": "Texts that are no IPv4 addresses are refused", "statement": "A text that is no dotted decimal address is refused and leaves the address as it was. The code ignores what follows an address and keeps the octets read before an error, without an error.", "quantifier": "all texts", "why_tests_cant": "2^32 values and unbounded parser inputs.", "anchors": ["net/ipv4/addr.go: ToString, FromString"]}
{"id": "C256", "title": "A listener that uses its own event target", "statement": "A listener that adds or removes listeners or dispatches on its own target while it is called returns. In the code it hangs, and so does everything else that uses the target.", "quantifier": "all histories, schedules of goroutines and operations of listeners", "why_tests_cant": "Quantifies over histories.", "anchors": ["event/target.go: AddEventListener, RemoveEventListener, DispatchEvent"]}
{"id": "C257", "title": "The legacy Pragma header beside an empty Cache-Control line", "statement": "Pragma: no-cache changes nothing when a Cache-Control line is given, and treating it twice is treating it once. In the code an empty Cache-Control line first makes every call add one more line.", "quantifier": "all headers", "why_tests_cant": "All header contents.", "anchors": ["net/http/header-pragma.go: FixPragmaCacheControl"]}
{"id": "C258", "title": "Replacing places given in another order or outside of the file", "statement": "Places given in any order are replaced rightly, and places outside of the file are refused. In the code a place given after a later one is moved, and places outside of the file panic.", "quantifier": "every text and every list of places", "why_tests_cant": "lengths shrink and grow in any combination", "anchors": ["os/default/file.go:ReplaceLocation"]}
{"id": "C259", "title": "Accept header is read in order of preference", "statement": "For every Accept header the list of media types read from it contains exactly the acceptable types of the header, none lost or repeated, each with the quality its q parameter gives (1 without one), with no type standing before one of higher quality and types of equal quality in header order. In the code the first parameter counts as the quality whatever its name, a type whose first parameter is no number is lost, and an absent header gives an entry.", "quantifier": "every header text, every strict order on qualities (including incomparable values)", "why_tests_cant": "the number, order and qualities of the elements are unbounded and the outcome depends on all of them", "anchors": ["net/http/header-accept.go insertMime", "net/http/header-accept.go sortMimes"]}
{"id": "C260", "title": "The Host line is treated as the authority of the target", "statement": "After the host check the host of a request is the one named in the target or, without one, in the Host line, so the two spellings are treated the same. In the code the host stays empty when it is named in the Host line, so that the host filter passes every such request.", "quantifier": "every request URI and header", "why_tests_cant": "headers and URIs are unbounded", "anchors": ["net/http/request.go CheckHost", "net/http/services/host-supported.go ServeHTTP"]}
{"id": "C261", "title": "Sending a request returns a response or an error and closes the stream", "statement": "For every sequence of stream states the sender blocks until the first deciding state, then returns the response or an error, never neither, and closes the stream it opened exactly once. In the code a timeout returns neither, an unsent one-way request counts as sent, and the stream is not closed after an error.", "quantifier": "every sequence of stream states, every outcome of opening, encoding and decoding", "why_tests_cant": "the sequence of states is unbounded and chosen by the network", "anchors": ["net/http/v1/handler.go SendBidirectionalRequest SendUnidirectionalRequest", "net/srpc/handler.go SendBidirectionalRequest HandleIncomeRequest"]}
{"id": "C262", "title": "Paths lead to the right file", "statement": "A path made of directory names and a file name finds exactly the object the names lead to, without a panic. In the code files in directories, and paths that end in a slash, are not found or the wrong object is.", "quantifier": "every tree, every path", "why_tests_cant": "trees and paths are unbounded", "anchors": ["os/default/file-directory.go:FileByPath"]}
{"id": "C263", "title": "Changing the time limits of a socket", "statement": "Setting a read or write time limit on a socket announces exactly that limit when it has passed, extending it moves the announcement, and a negative duration removes it. In the code the two directions are swapped, an extended limit is never announced, and limits set on a new socket never arm the timer.", "quantifier": "every socket, clock and duration", "why_tests_cant": "clocks and orders of calls are unbounded", "anchors": ["net/socket-timing.go:SetReadTimeout", "net/socket-timing.go:TimerHandler"]}
{"id": "C264", "title": "Methods get the code of their own type", "statement": "In every file, each encoding method is given the code of the type it is declared on, wherever types and methods stand in the file. In the code methods of two types with one receiver name get the code of the first, types after a method are not known, and value receivers are refused.", "quantifier": "every sequence of declarations", "why_tests_cant": "the order and naming of declarations is unbounded", "anchors": ["syllab/generator.go:CompleteMethods"]}
{"id": "C265", "title": "Decompressing a codec", "statement": "A decompressor answers every call as a codec holding the plain contents; damaged data is reported; data handed over is what it then holds. In the code damage is not noticed, data handed over is ignored, and a gzip decompressor cannot be written.", "quantifier": "every source, damaged or not, and every history of calls", "why_tests_cant": "which prefix of damaged data can be read is not enumerable", "anchors": ["compress/gzip/decompressor.go:Decompressor", "compress/flate/decompressor.go:Decompressor"]}
{"id": "C266", "title": "Logging and recovery from panics", "statement": "A panic in a goroutine that defers the handler is recovered from and logged exactly once, to every listener in order, at level error and with what the panic value says (an event is logged as it is); logging a text reaches every listener with its level, and one bad listener does not end logging. In the code a listener or a method of the value that panics ends all logging or the goroutine.", "quantifier": "all panic values, listeners, histories of logging and recovering", "why_tests_cant": "values, listeners and histories are unbounded", "anchors": ["log/panic_handler.go:PanicHandler", "log/log-helpers.go:Trace", "event/target.go:DispatchEvent"]}
{"id": "C267", "title": "Frames through a network of switches", "statement": "A frame is passed on hop by hop along its path, out through the physical connection of the port the path names, is accepted by the last switch of the path and by no other, and never circulates; bridges take one hop; a broadcast goes out once through every port. In the code frames are not sent on through physical connections, can circulate for ever, bridges panic at the last hop, and a broadcast panics at the first port without a connection.", "quantifier": "all networks of switches, wirings of ports, paths and frames", "why_tests_cant": "networks, wirings and paths are unbounded and a frame may come back to a switch", "anchors": ["net/chapar/mux.go:Multiplexer.Receive", "net/chapar/mux.go:Multiplexer.Send", "net/chapar/port-bridge.go:BridgePort.Send", "net/chapar/port.go:port.Receive"]}
{"id": "C268", "title": "Closing and reusing TCP streams", "statement": "A TCP stream can be closed and taken down without error, its halves are taken down once, and a stream or timer that is reset behaves like a new one: nothing of the former connection counts for the next one. In the code no stream can be closed without error (its timer is never initialised), resetting a stream does nothing, and set-up without reset counts former retries.", "quantifier": "every stream, configuration, clock and history of events", "why_tests_cant": "A test closes one stream after one set-up; whether any history leads to a stream that can be closed is a question about all of them.", "anchors": ["net/tcp/stream.go Stream.Deinit", "net/tcp/stream-internal.go Stream.close", "net/tcp/stream-timing.go timing.Reinit", "net/tcp/stream-timing-keep_alive.go timingKeepAlive.Reinit", "net/tcp/stream-timing-user_timeout.go timingUserTimeout.Init"]}
{"id": "C269", "title": "A new page is a program for the page that was asked for", "statement": "Making a new page writes a script that declares a page object under one JavaScript name and registers it under that name, and names the domain, scope, urn and icon that were asked for; making the splash screen keeps its three files. The request can be used again for another page. In the code a hyphen in the scope or another character in the name gives no program, a quote cuts a field, a request used again keeps the name of the first page, and the splash screen can lose a file.", "quantifier": "every request: every domain, scope, chosen name and kind of file", "why_tests_cant": "Names and texts are arbitrary byte strings copied into a program text; a test fixes one name.", "anchors": ["modules/gui/services/new-page/logic.go: MakeNewPage", "modules/gui/services/splash-screen/service-make-splash-screen.go: MakeSplashFiles"]}
{"id": "C270", "title": "A GP frame reaches the connection of its peer", "statement": "A GP frame is checked and handed to the connection registered for its source address, an unknown peer or a bad frame is an error and never a panic; a connection writes its addresses into a frame. In the code the payload reaches nobody, bad types are accepted, short frames and a missing table panic, and the header is not written.", "quantifier": "every frame, every table of connections and every sequence of initializations", "why_tests_cant": "Frames come from the network and can hold anything.", "anchors": ["net/gp/frame.go: Process", "net/gp/init.go: Init", "net/gp/connection.go: Init, WriteFrame", "net/chapar/connection.go: Send, ReSend"]}
{"id": "C271", "title": "TCP segments that arrive over IP reach their stream", "statement": "A segment that arrives over IPv4 or IPv6 is given to the stream of its own connection (addresses and ports); a first segment makes a new stream; a malformed segment gives an error and leaves nothing behind. In the code no stream is ever made, the table grows with every segment, and short segments panic.", "quantifier": "all packets, tables of connections and histories of packets", "why_tests_cant": "the connections are a map over all addresses and ports and histories are unbounded", "anchors": ["net/ipv4/tcp.go:ReceiveOverIPv4", "net/ipv6/tcp.go:ReceiveTCPOverIPv6"]}
{"id": "C272", "title": "TCP stream: in-order bytes are delivered in order", "statement": "The bytes appended to the receive buffer are the in-order payload bytes. The code advances the expected sequence number by one per segment instead of by the payload length, ignores the initial number of the peer, and a passive open never reaches the established state.", "quantifier": "all sequences of arriving segments", "why_tests_cant": "Quantifies over arrival sequences.", "anchors": ["net/tcp/stream-internal.go"]}
{"id": "C273", "title": "The application's directory lists what the disk listed at the start", "statement": "After every history of calls on the application's directory, the directories it lists are exactly the names the operating system listed as directories when the application started, the files are exactly the other names, each once; the operating system is asked for the list once.", "quantifier": "every answer of the operating system, every history of calls, every name", "why_tests_cant": "The listing depends on what the operating system answers and on every call made before; a test sees one disk and one history.", "anchors": ["os/default/file-directory.go:init", "os/default/os.go:init", "os/default/file-directory.go:Directory"]}
{"id": "C274", "title": "Adding a timer never blocks on itself", "statement": "Adding a timer to the timing queue must complete for every state of the queue. The code re-acquires a non-reentrant lock on the reset path, so in queue states holding a timer that was reset (or needs moving) at the head the call deadlocks.", "quantifier": "all queue states reachable by histories of timer operations", "why_tests_cant": "A deadlock that depends on the queue history.", "anchors": ["timer/timing.go: AddTimer, cleanTimers", "timer/timer-async.go"]}
{"id": "C275", "title": "The frames of a packet are processed in order, to the end", "statement": "The frame loop processes the frames of a packet in order and ends after finitely many steps, whatever the packet holds. In the code a frame of an unhandled type or of length zero makes it loop for ever, an error frame panics, and GP and Chapar frames are misread.", "quantifier": "all byte strings", "why_tests_cant": "Termination over all remote inputs.", "anchors": ["net/frames.go: HandleFrames"]}
{"id": "C276", "title": "A limited ticker fires exactly the number of times asked for", "statement": "A ticker created for n ticks fires n times and then stops, and its remaining number counts down exactly. The code fires n+1 times.", "quantifier": "all n, all run times", "why_tests_cant": "All counts.", "anchors": ["timer/tick-limit.go: NewLimitTicker, TimerHandler, RemainingNumber", "timer/timer-sync.go: TimerHandler"]}
{"id": "C277", "title": "Atomic wall clock is atomic", "statement": "Load returns a time that was stored, a failed compare-and-swap changes nothing, and after concurrent stores the clock holds one of the stored times. The code updates seconds and nanoseconds separately, which breaks all three.", "quantifier": "all times, all interleavings", "why_tests_cant": "Depends on the schedule.", "anchors": ["time/unix/atomic.go: Load, Store, CompareAndSwap"]}
{"id": "C278", "title": "The JSON decoder returns on every text", "statement": "On every text, well formed or cut off anywhere, each decoding call returns a value or an error: it neither panics nor runs for ever. In the code, after a number has been read, a list decoder called on the rest of a cut-off text never returns; a boolean at the very end, and an n among the last bytes, panic; a cut-off minified string is accepted.", "quantifier": "every text, every decoder state left by earlier calls", "why_tests_cant": "Texts are unbounded and the failing ones depend on what was decoded before.", "anchors": ["json/decode.go DecodeByteSliceAsNumber", "json/decode.go DecodeBool", "json/decode.go CheckNullValue"]}
{"id": "C279", "title": "Content-Type headers without, with short and with two parameters", "statement": "A content type is taken apart also without a parameter, with a short one and with two, and every header can be asked for its content type. The code panics when there is no Content-Type or the parameter is short, recognises no subtype without a parameter, and with two parameters the first swallows the second or is lost.", "quantifier": "all type texts, all headers", "why_tests_cant": "All 64-bit lengths and all strings.", "anchors": ["net/http/header-content-length.go", "net/http/header-content-type.go: FromString"]}
{"id": "C280", "title": "Paths of Chapar can be set, read, put into a frame and read back", "statement": "A path of at most 255 hops that is set on a path variable is what the variable then gives, whatever it held before; a non-empty one that is unmarshalled too. Marshalling it to a frame with enough room puts it right behind the three header bytes and changes nothing else, and a path variable initialised from that frame, if the hop count of the frame says that many hops (at most 252), has the same path.", "quantifier": "every former content of the variables, every path of the given lengths, every frame", "why_tests_cant": "The claim is about all paths, lengths and frames, including the largest lengths at which the byte arithmetic still works.", "anchors": ["net/chapar/path.go: Path.Init, Set, Get, Unmarshal, MarshalTo", "net/chapar/frame.go: HopCount, Path"]}
{"id": "C281", "title": "A path of Chapar that cannot be kept is refused", "statement": "A path that is longer than a path variable can hold, an empty text where a path is unmarshalled, a frame too short for the path written to it, and a frame with too many hops are reported as errors and never change or lose a path silently.", "quantifier": "every path, every variable, every frame", "why_tests_cant": "Which lengths wrap around, are cut off or panic shows only when all lengths are considered.", "anchors": ["net/chapar/path.go: Path.Init, Set, Unmarshal, MarshalTo", "net/chapar/frame.go: HopCount, Path"]}
{"id": "C282", "title": "The media type of a file is that of its name", "statement": "A file has at every time the media type that belongs to the extension of its name, which is what follows the last dot after the last slash.", "quantifier": "every path a file is made with, every name it is renamed to", "why_tests_cant": "Whether the media type still fits after a rename depends on the pair of extensions, over all names.", "anchors": ["os/default/file.go: File.init, Rename, MediaType"]}
{"id": "C283", "title": "A limited ticker that is set up again stays limited", "statement": "A ticker made for a number of ticks keeps counting them down and stops, also after it was set up again with Reinit. In the code Reinit registers the handler of the signalling timer inside the ticker, so after it the ticker fires without limit and the remaining number never changes.", "quantifier": "every limited ticker, every number of firings", "why_tests_cant": "How often the ticker fires after it was set up again is unbounded; a test sees only as many firings as it waits for.", "anchors": ["timer/tick-limit.go: LimitTicker", "timer/timer-sync.go: Sync.Reinit", "timer/timer-async.go: Async.Reinit"]}
{"id": "C284", "title": "What was taken out of a buffer stays as it was, and changing it does not change the buffer", "statement": "The bytes obtained from a flat buffer keep their values while the buffer is used further, and whoever holds bytes the buffer was given keeps them. In the code the bytes are the buffer's own array: they stay while the buffer is only added to, but Reset or GrowLen with a negative count followed by a write goes over them, a buffer started with the front of a longer slice writes over the rest of that slice, and stores into the bytes show in the buffer.", "quantifier": "every memory, every buffer in it, every history of calls, every amount of room append takes, every byte written", "why_tests_cant": "Whether two slices share an array depends on the capacity append left behind, for every history; a test sees one capacity and usually one holder of the bytes.", "anchors": ["buffer/flat.go: Flat.Bytes", "buffer/flat.go: Flat.Init, Flat.Set", "buffer/flat.go: Flat.Reset", "buffer/flat.go: Flat.Write", "buffer/flat.go: Flat.GrowLen"]}
{"id": "C285", "title": "Each file has contents of its own", "statement": "Changing one file leaves the contents of every other file as they are, and so does changing bytes outside the files. In the code Unmarshal keeps the slice it is given and Marshal answers the slice itself, as in dst.Unmarshal(src.Marshal()) of the site generator: then appending to both, replacing in one, or prepending the same slice to two files changes the contents of the other file. Files whose slices were each made for them alone are independent through every history.", "quantifier": "every memory, every number of files, every history of unmarshal, append, prepend, replace and marshal, every amount of room append takes", "why_tests_cant": "The interference needs two files on one array and room behind it, which depends on capacities and on the whole history.", "anchors": ["os/default/file.go: File.Unmarshal", "os/default/file.go: File.Marshal", "os/default/file.go: File.Append", "os/default/file.go: File.Prepend", "os/default/file.go: File.ReplaceLocation", "www/combine.go: readySWFile"]}
{"id": "C286", "title": "A text decoded from bytes, or written into a packet, does not change when the bytes are reused", "statement": "A key, string or address decoded from a buffer keeps its value when the buffer is used for the next document or packet. In the code JSON keys, file addresses and all parts of a URI are the bytes of the buffer without a copy, and a URI that was written into a packet keeps that part of the packet as its text, so they change with the buffer, and so do the JSON string values of the unsafe decoders; JSON string values of the other decoders are copied and keep theirs.", "quantifier": "every memory, every buffer, every next content of the buffer", "why_tests_cant": "The change shows only when the buffer is reused after decoding; tests decode once from a buffer nobody writes to.", "anchors": ["json/decode.go: DecodeKey, DecodeString", "json/decode-minified.go: DecodeKey, DecodeString", "json/decode-unsafe.go: DecodeString", "json/decode-minified-unsafe.go: DecodeString", "file/uri.go: Unmarshal", "net/uri/uri.go: Unmarshal, UnmarshalFromString, MarshalTo, Marshal", "convert/string-unsafe.go: UnsafeByteSliceToString, UnsafeStringToByteSlice"]}
{"id": "C287", "title": "What is decoded comes from the message alone", "statement": "A getter that gives out a part of a received message (TCP options, the payload of a call, data or padding frame, the optional data of an IPv6 routing header, the strings and arrays of a syllab message, the null of a JSON document) answers bytes of the message only, or fails; bytes that merely stand behind the message in a larger receive buffer never show in the answer, and adding to the answer does not change the message.", "quantifier": "all memories, all messages in all buffers with any room behind the message, all getters with a length field, all contents behind the message", "why_tests_cant": "tests hand over a slice of exactly the size of the message, where a length that is too large panics; only with a receive buffer larger than the message does Go allow the slice, and then every content of the rest of the buffer matters", "anchors": ["net/tcp/segment.go:Options", "net/srpc/frame-call-service.go:Payload", "net/sec/frame-padding.go:Payload", "net/l4/frame-data.go:Payload", "net/ipv6/extension-routing.go:Optional", "syllab/decode-unsafe.go:UnsafeGetByteArray", "syllab/decode-safe.go:GetStringArray", "json/decode.go:CheckNullValue"]}
{"id": "C288", "title": "A very long timeout is a late deadline", "statement": "Giving a socket a very long time limit for one direction behaves as a deadline in the far future: it does not disturb a nearer limit of the other direction, and nothing is announced as expired because of it.", "quantifier": "all sockets, all clock readings and durations in 64 bits, all histories of timeout calls", "why_tests_cant": "the failure needs a duration whose end cannot be written in 64 bits, such as the largest duration, together with a running timer for the other direction; tests use short durations", "anchors": ["net/socket-timing.go:SetReadTimeout", "net/socket-timing.go:SetWriteTimeout", "time/monotonic/time.go:Add", "timer/util.go:when"]}
{"id": "C289", "title": "One connection per peer path", "statement": "A switch that is the last hop of a frame takes it to the connection of the path it came by: all frames by one path share one connection, frames by different paths never do, every valid frame is handled, and answers go back by the path the frame came by, whatever its payload.", "quantifier": "all switches, all tables of connections that keep what the interface promises, all sequences of valid frames, all paths and payloads", "why_tests_cant": "the tests of the package build connections by hand; the defect shows in the table after a second frame by the same path, and the crash needs a frame of one of two lengths out of 255", "anchors": ["net/chapar/mux.go:Receive", "net/chapar/connection.go:Init", "net/chapar/path.go:Unmarshal", "net/chapar/protocol.go:Connections"]}
{"id": "C290", "title": "Registries used by several goroutines", "statement": "Any number of goroutines may look up and register errors, media types, compress types (and look up services after registration) at once: nobody ends the program, each identifier is given to one object only, and what was registered without an error can be found in every index.", "quantifier": "all registries, all objects, all numbers of goroutines, all lists of calls and all schedules of their single accesses to the tables", "why_tests_cant": "A data race shows itself in a few schedules of very many, and the runtime reports it only when two accesses really meet.", "anchors": ["errors/errors.go:Register", "errors/errors.go:UnRegister", "errors/errors.go:GetByID", "operation/services/services.go:Register", "operation/services/services.go:GetByID", "mediatypes/media-types.go:Register", "compress-types/compress-types.go:Register", "compress-types/compress-types.go:ContentEncodings"]}
{"id": "C291", "title": "A timing wheel whose callbacks add timers", "statement": "A timer's callback may itself add timers to the wheel. Whatever it adds, a tick runs each timer that was in its slot, once and in order; a timer added during the tick waits its period; and the tick ends. In the last slot of the wheel the code loses timers and runs others too early, and a callback that adds its own short timer never returns.", "quantifier": "every wheel, position, set of periods and every behaviour of the callbacks, depending on everything that has run", "why_tests_cant": "Which array a slot shares depends on the position, the number of timers in the slot and what the callbacks add; a test with one callback at one position sees one case.", "anchors": ["timer/timing-wheel/timing-wheel.go: TimingWheel.AddTimer, TimingWheel.Start, TimingWheel.checkAndAddTimerAgain"]}
{"id": "C292", "title": "The time a cookie expires survives being sent as text", "statement": "A time of expiry that is set on a cookie is read back to the second, from the cookie and by a peer that parses the line; the older form with dashes is read too; whatever text a peer sends, what is read is a date and time of the calendar. Times before the year 0 or after the year 9999 are lost: they are read back as the zero time.", "quantifier": "every calendar date and time, every cookie without separators in its fields, every text a peer may send", "why_tests_cant": "Dates are unbounded, and the form of the text changes with the number of digits of the year; a test tries a few dates.", "anchors": ["net/http/header-set-cookie.go: SetCookie.SetExpire, SetCookie.GetExpire, SetCookie.Marshal, SetCookie.Unmarshal", "net/http/const.go: TimeFormat"]}
{"id": "C293", "title": "The text of an identifier names one service, and no text brings the server down", "statement": "The short text of an identifier is read back as the identifier; every identifier has one text; a text that is none is reported as an error; and reading never panics, so a request whose query is no identifier is answered. In the code the text is read back, but a text that begins with twelve good characters panics, whatever follows, and with it the handler of a POST to the multiplexer; every other bad text is read as the identifier 0 and runs the service registered there; and every identifier has three more texts of the same length.", "quantifier": "every text, every identifier, every set of registered services", "why_tests_cant": "There are more texts than a test can try, and the texts that panic look like ordinary query strings.", "anchors": ["identifier/32byte/uuid.go: IDasString, IDfromString", "net/http/services/service-mux.go: ServeHTTP", "net/http/v1/handler.go: HandleIncomeRequest, ServeHTTP"]}
{"id": "C294", "title": "Only whole numbers of JSON are read as whole numbers", "statement": "Decoding a signed number answers the number exactly where a whole number of JSON in range stands at that place, and reports an error for anything else: null, a text, a fraction, a needless sign or zero, a text that is cut off. In the code needless zeros and plus signs are accepted, white space behind a number is refused, a value that is no number is answered with the next digits anywhere behind it, and a text that is cut off with the number that was read before.", "quantifier": "all texts, all widths, all earlier decoder states", "why_tests_cant": "which texts are taken for numbers is a statement about every text; a test has a few", "anchors": ["json/decode.go: DecodeInt64, TrimToDigit, FindEndToken", "json/decode-minified.go: DecodeInt32, DecodeInt64"]}
{"id": "C295", "title": "Base64 in JSON: one text for one value, and one item does not show in another", "statement": "A byte string is read from JSON exactly from its base64 text, any other text is refused, and each item of a list is made of its own text only. In the code line breaks in the text and the bits left over at its end are not looked at, so that every value has many texts, and an item of 32 bytes whose text has line breaks is filled up with the bytes of the item before it.", "quantifier": "all byte strings, all texts, all lists", "why_tests_cant": "the set of texts read as one value is infinite, and a leak between items needs the right text behind any value", "anchors": ["json/decode.go: DecodeByteSliceAsBase64, Decode32ByteArraySliceAsBase64", "json/encode.go: EncodeByteSliceAsBase64, Encode32ByteArraySliceAsBase64"]}
{"id": "C296", "title": "Ports taken away from a switch carry no more frames", "statement": "After a port of a Chapar switch is taken away no frame is sent through its connection and none is delivered to the switch behind it; the ports of other numbers work as before. Registering another port under the number replaces it.", "quantifier": "every switch, port number, connection, frame and path", "why_tests_cant": "A test would have to try every frame and path that names the port after it was taken away; whether a port is ever used again is a claim about all later frames.", "anchors": ["net/chapar/mux.go: unRegisterPort, removePort, registerNewPort", "net/chapar/port.go: Port"]}
{"id": "C297", "title": "Texts of GP addresses and Chapar paths can be read back", "statement": "The text of a Chapar path or of a GP address, read into another path or address, gives the path or address that was written; or an error is reported.", "quantifier": "every path of up to 255 hops, every address of 16 bytes, every prior content of the destination", "why_tests_cant": "Round trips must hold for every value and every prior content of the destination.", "anchors": ["net/chapar/path.go: Path.ToString, Path.FromString", "net/gp/address.go: Addr.ToString, Addr.FromString"]}
{"id": "C298", "title": "Bytes handed over are taken, handed back, or an error is reported", "statement": "UnmarshalFrom of a codec, and the copying operations of buffers and sockets, account for every byte: each is taken, in front, or handed back as remaining, or an error is reported.", "quantifier": "every codec, every buffer and socket, every data", "why_tests_cant": "That no byte disappears is a claim about all data and all prior contents.", "anchors": ["json/codec.go: Codec.UnmarshalFrom", "net/socket-codec.go: Socket.UnmarshalFrom", "net/stream-codec.go: Stream.UnmarshalFrom", "net/std/io.go: Socket.ReadFrom", "buffer/flat.go: Flat.WriteTo, Flat.ReadFrom", "uri/uri.go: URI.UnmarshalFrom"]}
{"id": "C299", "title": "Many calls of Stop at the same time", "statement": "Of all the calls of Stop on a timing wheel that was started at most once, at most one is told that it stopped the wheel; from then on no tick is served; after any call that returned at most the one tick that was waiting is served; and the only panic is that of a call that comes to its send while the goroutine of the wheel is closing the channel.", "quantifier": "every interleaving of the single steps of any number of calls of Stop, of the ticker and of the goroutine", "why_tests_cant": "Interleavings of unboundedly many calls.", "anchors": ["timer/timing-wheel/timing-wheel.go: Start, Stop", "timer/timer-sync.go: TimerHandler"]}
{"id": "C300", "title": "A timing wheel started twice can be stopped", "statement": "A wheel on which Start was called twice can be stopped without a panic. In the code the goroutine the stop does not reach panics as soon as the other one has closed the channel.", "quantifier": "every interleaving of the single steps of any number of calls of Start and Stop", "why_tests_cant": "Interleavings of unboundedly many calls.", "anchors": ["timer/timing-wheel/timing-wheel.go: Start, Stop"]}
{"id": "C301", "title": "A listener that panics does not take its event target with it", "statement": "When a listener panics while it is called, or a listener cannot be compared when it is to be removed, and the caller recovers from the panic, the target goes on working for everybody else. In the code the mutex stays locked: no call on the target by anyone proceeds any more. A listener whose type cannot be compared (a function, for example) cannot be removed at all: removing it panics exactly when a listener of its type is registered. Until the first panic every schedule does what it does without panics, and listeners that can be compared are removed whatever else is registered.", "quantifier": "all listeners, comparisons, histories and schedules of goroutines", "why_tests_cant": "listeners, histories and schedules are unbounded", "anchors": ["event/target.go:DispatchEvent", "event/target.go:RemoveEventListener", "log/panic_handler.go:PanicHandler"]}
{"id": "C302", "title": "The functions a user gives to a pool may fail or use the pool", "statement": "A constructor that panics does not use up a place of the pool, and a clean-up function that panics, or asks the pool for its length, does not keep Close from finishing. In the code every panic of the constructor takes one place away for good, so that a pool can end up creating nothing at all; and a clean-up function that panics or asks for the length within Close leaves the mutex locked: the items behind it are never cleaned up, Len hangs, no Get returns an item and no Close succeeds any more.", "quantifier": "all pools, constructors, clean-up functions and later histories of calls", "why_tests_cant": "functions and histories are unbounded", "anchors": ["pool/lifo.go:Get", "pool/lifo.go:Close", "pool/lifo.go:Put", "pool/lifo.go:Len"]}
{"id": "C303", "title": "Idle items are cleaned up within two windows", "statement": "As documented, an item that is idle is cleaned up by the second round of the cleaner after it was put back, and not before: an item that nobody takes is cleaned up when two rounds are over, whatever users do meanwhile, and after one round it is still there to be handed out. In the code the item kept aside is never cleaned up, however many rounds there are.", "quantifier": "all reachable pools, items and interleavings of users, cleaner and closer", "why_tests_cant": "schedules are unbounded", "anchors": ["pool/lifo.go:Clean", "pool/lifo.go:popHead", "pool/lifo.go:pushHead"]}
{"id": "C304", "title": "Sets of weekdays, hours and half hours", "statement": "Weekdays, hours and half hours of the day can be joined to sets with |. Check says yes exactly when the set and what is asked about have a member in common, All holds everything, None holds nothing, and joining every named value gives All. In the code the last does not hold: All has bits that name nothing.", "quantifier": "all lists of named weekdays, hours and half hours joined to a set, and all lists joined to a question", "why_tests_cant": "There are 2^48 sets of half hours alone, and as many questions to each; a constant with the wrong bit shows only in some pairs.", "anchors": ["time/utc/weekday.go: Weekdays, Check", "time/utc/dayhour.go: DayHours, Check", "time/earth/dayhour.go: DayHours, Check"]}
{"id": "C305", "title": "Parts of a URN", "statement": "After Init with a URN text, URI is that text, Scheme is urn, and NID and NSS are the namespace and the name written in the text. In the code NID and NSS stay empty for every text.", "quantifier": "all histories of Init calls with any texts", "why_tests_cant": "It ranges over all texts and all histories of calls.", "anchors": ["net/uri/urn.go: URN.Init, URI, Scheme, NID, NSS"]}
{"id": "C306", "title": "Options of event listeners and cancelled events", "statement": "As documented, a listener is not added again with the same callback and capture, a removal takes out the listener with the same callback and capture, a listener added with Once is called at most once, and an event keeps its domain and time and reports cancellation only if it can be cancelled. In the code all options are ignored: Once listeners are called for ever, a repeated addition is called repeatedly and a removal takes out the earliest registration whatever its options.", "quantifier": "all histories of additions, removals and dispatches with any options, and any number of PreventDefault calls", "why_tests_cant": "It ranges over all histories; each option shows only in some later dispatch.", "anchors": ["event/target.go: DispatchEvent, AddEventListener, RemoveEventListener", "event/options.go: Options", "event/event.go: Event", "event/protocol/event-target.go: EventTarget"]}
{"id": "C307", "title": "What calls on a timer answer", "statement": "Start and Tick report an error exactly when a duration is below one nanosecond or the timer is armed or was stopped since it was last armed; Stop reports whether the timer was stopped before it ran and Reset whether it was changed before it ran; Reset of a ticker changes only the interval, not the deadline of the next tick. In the code Stop answers the same when it stops a timer and when there is nothing left to stop, Reset answers the same in all states, and Reset moves the next tick.", "quantifier": "all programs of Start, Stop, Reset, Tick and checks that return, all timers, durations and clock readings", "why_tests_cant": "The answer depends on the whole history of the timer, including when its callback ran.", "anchors": ["timer/timer-async.go: Async.Start, Async.Stop, Async.Reset, Async.Tick", "timer/protocol/ticker.go: Ticker"]}
{"id": "C308", "title": "The errors that packages declare are told apart and found", "statement": "Two different error variables that packages of the module declare are never equal. When packages are initialised, each of their errors is registered and both lookups, by media type and by identifier, find it.", "quantifier": "every pair of the 87 error variables, every set of packages of a program, every order in which they are initialised, every hash without collisions among the media types, developer mode or not", "why_tests_cant": "The order in which packages are initialised depends on the program that imports them; a test sees one program. Two variables that are given one text by mistake compare equal without any failure.", "anchors": ["error/error.go: IsEqual", "errors/errors.go: Register, GetByID, GetByMediaType", "net/http/errors/init.go", "net/uri/errors/errors.go", "errors/init.go", "timer/errors/init.go", "net/errors/init.go", "operation/command/errors/init.go", "achaemenid/errors/init.go"]}
{"id": "C309", "title": "What the receive buffer of a TCP stream refuses is not lost without notice", "statement": "When the receive buffer refuses the payload of a segment, for example because it is full, Receive answers an error, the segment is not counted as received, and it is accepted when the peer sends it again.", "quantifier": "every behaviour of the buffer, every state of an established stream, every segment and every sequence of segments", "why_tests_cant": "A test would need a buffer that runs full at each possible segment, with each combination of flags, and the resending that follows.", "anchors": ["net/tcp/stream.go: Receive", "net/tcp/stream-internal.go: incomeSegmentOnEstablishedState, sendACK, validateSequence, checkPushFlag", "adt/protocol/container-operations.go: Append, Insert"]}
{"id": "C310", "title": "Searching header lines from an index", "statement": "A search of the header lines from an index answers the value and index of the first line from there on that has the name; when there is none the caller can tell; and no index makes it panic. In the code a miss and an empty value on the first line give the same answer, and every negative index panics.", "quantifier": "all headers, all names, every int as the start", "why_tests_cant": "Every header and every start, also those no caller in the repository passes.", "anchors": ["net/http/header.go: Header_Find, Header_Get, Init"]}
{"id": "C311", "title": "A file over its history of changes, and reset to what is stored", "statement": "Setting, appending, prepending, replacing, reading in, saving and resetting a file never fails and touches no other file; the content is what the calls made it, each save writes it once, and after a reset (setting no content) the file is again what is stored: reading gives the stored content, and saving writes nothing. In the code the length, writing out and adding to other bytes take a file that is reset for empty, what is appended or prepended after a reset is lost, and compressing and saving it replaces it by the compressed form of nothing.", "quantifier": "every history of such calls on a file, every content and every answer of the disk", "why_tests_cant": "histories and contents are unbounded", "anchors": ["os/default/file.go:Unmarshal", "os/default/file.go:Marshal", "os/default/file.go:Len", "os/default/file.go:Append", "os/default/file.go:Prepend", "os/default/file.go:Replace", "os/default/file.go:ReadFrom", "os/default/file.go:Compress", "os/default/file.go:Save", "www/combine.go:addLocalized"]}
{"id": "C312", "title": "Web content served from the directory of the operating system", "statement": "A request for a path at which the directory has a file is answered with status 200, the length of the file and its bytes, whether the content is in memory or still stored; every other path is answered with the main page. In the code a file that is still stored is sent without a length and without bytes, a path without a file ends in a panic whichever main page there is, and since no directory of the operating system ever holds a file, so does every request.", "quantifier": "every directory, file, path, main page, response and answer of the operating system", "why_tests_cant": "trees, paths and histories are unbounded", "anchors": ["net/http/services/serve-www.go:ServeHTTP", "net/http/v1/handler.go:HandleOutcomeResponse", "os/default/file-directory.go:FileByPath", "os/default/file.go:Len", "os/default/file.go:MarshalTo"]}
{"id": "C313", "title": "The host check for requests as they are read", "statement": "Of the requests that are read from bytes, exactly those for the configured domain, or without a host, reach the handlers, and a request that is initialised again is read as a new one, with nothing left of an earlier target. In the code the second holds, and a request for the domain does reach its handler; but reading a target never sets its host, so every request passes the check of every domain, in particular a complete one for another host.", "quantifier": "every sequence of bytes read as target, however often the request was used before, every domain, header and response", "why_tests_cant": "byte sequences and histories are unbounded", "anchors": ["net/http/services/host-supported.go:ServeHTTP", "net/uri/uri.go:UnmarshalFrom", "net/uri/uri-authority.go:Init", "net/http/request.go:CheckHost", "net/http/v1/handler.go:ServeHTTP"]}
{"id": "C314", "title": "Paths and names do not lead out of a directory", "statement": "Whatever path is asked for, the web handler sends only files listed below the directory it serves, and nothing outside that directory shows in any answer; and a directory asked for by name is made in the directory it is asked of. In the code the first two hold, also for paths with dots; but the name is put into the path as it is, so that two dots lead out: a directory has others made beside it and above it.", "quantifier": "every path, name, directory and tree of directories and files of any size", "why_tests_cant": "paths and trees are unbounded, and that nothing else shows compares all pairs of systems", "anchors": ["os/default/file-directory.go:FileByPath", "os/default/file-directory.go:directoryByPathParts", "os/default/file-directory.go:Directory", "net/http/services/serve-www.go:ServeHTTP"]}
{"id": "C315", "title": "Following the redirects of the host check", "statement": "A client that follows the redirect of the host check sends a request for the configured domain with the same path and query, which passes the check, so that following ends after one step; and the Location line is one line. In the code the first holds; but line breaks in the path of a request, which are read as they are, stand in the Location line.", "quantifier": "every domain, host, path, query and response", "why_tests_cant": "texts are unbounded, and what is written must be compared with what is read", "anchors": ["net/http/services/host-supported.go:ServeHTTP", "net/uri/uri.go:UnmarshalFrom", "net/uri/uri-authority.go:Init"]}
{"id": "C316", "title": "Checked cookies come back as they were set", "statement": "A cookie that passes the check of the server is read by the client with the value and the attributes that were set, and the server finds it in the Cookie line that the client sends back. In the code this holds for texts without semicolons, for every cookie of the line but the last; but the check lets semicolons pass, so that a value can set the path of the cookie, or make the reader panic.", "quantifier": "every list of cookies, every name, value, path and domain", "why_tests_cant": "texts and lists are unbounded, and checking, writing, reading and walking must fit together", "anchors": ["net/http/header-set-cookie.go:CheckAndSanitize", "net/http/header-set-cookie.go:Marshal", "net/http/header-set-cookie.go:Unmarshal", "net/http/header-cookie.go:Next", "net/http/header-cookie.go:sanitizeCookieValue"]}
{"id": "C317", "title": "Path segments and query values put into a URI arrive", "statement": "Whatever bytes the segments of a path and the names and values of a query have, once they are escaped, put into a URI, written and read by the other side, the other side has exactly these segments and, for every name, exactly these values in their order. In the code this holds for complete URIs; for the target of a request without scheme and host it holds for segments without a colon, and with a colon in any segment reading panics or finds a scheme that was not written; and a target without a query, read by a URI that was used before and not set back, has the query of the earlier one.", "quantifier": "every list of segments, every map of query values, every order in which the names are written", "why_tests_cant": "texts, lists and maps are unbounded, and escaping, writing, reading and unescaping must fit together", "anchors": ["net/uri/escape.go Escape", "net/uri/escape.go Unescape", "net/uri/uri-query.go Query.ToString", "net/uri/uri-query.go Query.FromString", "net/uri/uri.go URI.Marshal", "net/uri/uri.go URI.Unmarshal"]}
