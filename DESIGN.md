# Formal model of MARTe2 in Lean 4 — design

Paths below are relative to `/repo/Source/Core` (`BM` = `BareMetal`, `SC` = `Scheduler`).

## 1. Layout

    lean/Verif/Model/X.lean   executable model of the code, every definition cites file:lines
    lean/Verif/Spec/X.lean    small independent specification (only where the statement needs one)
    lean/Verif/Proof/X.lean   helper lemmas
    lean/Verif/Props/X.lean   property theorems, each with a non-vacuity `example` beside it

The models are total functions on lists, naturals, integers and bit vectors. Memory-unsafe or
undefined behaviour is a distinct outcome (`none` / an explicit `ub` value), never a silent default.
Concurrent code is a transition system whose steps are the atomic operations of the source
(test-and-set, a mutex-protected region, a single read or write); theorems quantify over all
reachable states, hence over all interleavings and any number of threads.

## 2. Trusted base

* Lean 4.33.0 kernel.
* Axioms: at most `propext`, `Classical.choice`, `Quot.sound` (checked with `#print axioms`).
  No axiom, `sorry`, `native_decide` or `bv_decide` of our own.
  Mathlib (its matrices, determinants and fields) is imported by the modules of C72 only; all the others use the core
  library of Lean.
* The hand translation from C++ to Lean. Each definition cites the lines it models and lists its
  simplifications. The general ones are:
  - C++ unsigned integers are `BitVec n` or `Nat` with explicit reduction; where overflow matters the
    width is modelled, where it cannot occur (e.g. a loop counter bounded by an existing size) `Nat` is used;
  - heap allocation always succeeds unless the model says otherwise;
  - REPORT_ERROR logging is dropped (no observable effect on results);
  - atomics are sequentially consistent; the scheduler of the OS is an arbitrary interleaving;
  - floating-point code is not modelled except where an abstract number type suffices.

## 3. Properties: what is modelled and how it is proved

| id | model | method |
|----|-------|--------|
| C01 | StaticListHolder as capacity + array of cells, growth by granularity, out-of-capacity access = `none` | refinement to `List` by induction over the operation list |
| C02 | LinkedListable/LinkedListHolder on an explicit heap `addr -> next` | refinement: representation predicate heap/list preserved by every operation |
| C03 | BSort loop on the heap | loop invariant: permutation and sorted suffix |
| C04 | UnorderedMap buckets with hash, Resize | refinement to a finite map by induction over operations |
| C05 | BinaryTree array and its binary search loop | sortedness invariant, search correct on every sorted array |
| C06 | ReferenceContainer Insert/Delete/Get on the list holder | refinement to `List` |
| C07 | Find with the ObjectName filter on an object tree | equality with a direct recursive lookup, induction on the path |
| C08 | Reference objects and per-object counters; concurrent Decrement as two-step program | invariant `count = number of live references` by induction; concurrency: negation by a concrete schedule, and a proof for the repaired primitive |
| C09 | BitSet word array | bitwise extensionality against `Nat -> Bool` |
| C10 | BitRange shift/mask arithmetic on `BitVec` | `getLsbD` extensionality for all widths/offsets |
| C11 | SafeMath checks | omega/Int arithmetic against the mathematical operation |
| C12 | CRC table and loops, generic width | linearity / loop lemma over 8 shifts, induction on the message |
| C13 | SquareRoot loops | digit-by-digit invariant, all widths |
| C14 | Encode/Decode with the literal alphabet/table | induction on 3-byte groups; the len%3=1 defect as a negation, exact characterisation as a theorem |
| C15 | StringToIntegerDecimalNotation with the 64-bit overflow tests | induction on the digit string |
| C16 | digit group printer + C15 | composition of the two |
| C17 | TimeoutType fields | case analysis; negation for operator-= |
| C18 | IOBuffer pointer fields + heap buffer | refinement to (bytes, cursor) |
| C19 | GetToken loop over getc | equality with a split specification by induction on the input |
| C20,C21 | Single/DoubleBufferedStream over an abstract device with partial reads/writes | invariant "device ++ buffer = written"; negation for the EOF loss |
| C22 | test-and-set lock transition system | invariant |
| C23 | FastResourceContainer tree | structural invariant by induction on Take/Return |
| C24 | CountingSem transition system | safety invariant; negation for the lost wake-up |
| C25 | queue + alarm transition system | invariant |
| C26 | ReceiveMessage loop | induction on the filter list |
| C27 | WaitForReply polling loop over an arbitrary clock | negation + theorem for what holds |
| C28 | catcher ConsumeMessage | induction on arrivals |
| C29 | StateMachine with events and message outcomes | invariant over histories |
| C30 | copy tables on byte memories | induction on the table |
| C31 | CopyInputs/CopyOutputs loops | exact ring read where the code is right, negation otherwise |
| C32,C33 | producer/consumer transition systems | invariant/refinement to a queue |
| C34 | ConfigureScheduler plan and ExecuteSingleCycle | induction on the plan |
| C35 | RealTimeApplication/GAMSchedulerI two-slot state | invariant over histories |
| C36,C37 | ConfigurationDatabase tree with path cursor | induction over the tree/path |
| C38 | MathExpressionParser tables and actions, the ParserI loop on tokens, and the RPN machine of C39; grammar and values in Spec/MathExpr | induction on derivations of the grammar: the parser run between two stack contents; simulation of the RPN program; table facts by kernel evaluation |
| C39 | RuntimeEvaluator Compile/Execute | simulation between the type stack and the data stack |
| C40 | CircularBufferThreadInputDataSource indices | invariant |
| C41 | IntType, SafeNumber2Number (with C10) | case analysis over widths and signs, omega |
| C42 | EventSem on a POSIX condition variable as a transition system | invariant; negations by schedules |
| C43,C44 | BrokerI table construction, plain and optimised | induction on the ranges; both tables denote the same copy |
| C45 | MemoryDataSourceI layout | induction on the signals |
| C46 | InterleavedToFlat / FlatToInterleaved loops | index arithmetic, pointwise equality |
| C47 | SingleBufferedStream over a file | refinement to a file with a cursor |
| C48 | StaticStack, CircularStaticList on the StaticList of C01 | refinement |
| C51 | ParserI::Parse for any tables, the tables and actions of the standard language, AnyTypeCreator, on the model of ConfigurationDatabase | a calculus of runs of the table-driven parser; induction on documents; the database by C36 |
| C52 | LexicalAnalyzer (SkipComment, AddToken, TokenizeInput, GetToken, PeekToken) for any grammar, GetNextTokenType | characters still to be read, in the buffer and in the stream, by induction on a word; a round takes one or two pieces of the text; the queue by an invariant over the calls |
| C53 | PrintCCString, PrintToStream (scalar, vector, matrix), PrintStructuredDataInterface with the standard grammar; PrinterI::PrintStructuredDataI with StandardPrinter, without collapsed arrays | the tree below the current node as a forest (exists for every history); induction on the forest along the calls; the text as pieces of C52 that say the document, then C51 and C52 |
| C54 | EmbeddedThreadI (GetStatus, Start, Stop, SetTimeout, ResetThreadId) and EmbeddedThread::ThreadLoop as interleaved steps, the data base of threads and cancellation of Threads.cpp (Linux) | invariant over all schedules (one thread, where the callback is, what the owner knows); a rank for the steps and the calls left after a stop; deadlines in 32 bit arithmetic; counterexample schedules |
| C55 | MultiClientService (limits, AddThread, RemoveThread, Start) and MultiClientEmbeddedThread::ThreadLoop as interleaved steps on a shared pool | life of a thread as an automaton; invariant of the pool for histories in which its users come one by one; a thread that has not begun to serve always exists; rank after a stop; counterexample schedules for the rest |
| C56 | FormatDescriptor::InitialiseFromString; PrintFormatted, PrintToStream (scalars, vectors, matrices), PrintCCString, PrintStream of IOBuffer; the integer printing of C16 and C49, the floating point printing of C108 | the grammar of formats is inverse to the reader of fields; induction over the format; fields as cut and fill of a text; digits as numerals; arrays from the print of one element |
| C57 | ResolveDataSources, AddSignalToDataSource, CheckTypeCompatibility, ResolveConsumersAndProducers, ResolveFunctionSignalsMemorySize, ResolveFunctionsMemory, VerifyDataSourcesSignals, VerifyConsumersAndProducers of RealTimeApplicationConfigurationBuilder on flattened data bases (records instead of trees) | the data sources only grow: what is known of a signal stays known; induction over functions and signals; producers from the lists of uses; completeness from an invariant that every signal is as the common description says | 
| C58 | Md5Context::Starts, Update, Process, Finish, HmacStarts, HmacFinish, Md5, Md5Hmac; words of 64 bits as osulong on Linux | cutting to 32 bits commutes with every operation; the 64 unrolled steps are the steps of RFC 1321 with turned registers; invariant of the context after any message; lengths by arithmetic |
| C59 | HttpChunkedStream::Flush and FinalChunk over the buffers and devices of C38, DoubleBufferedStream::Write, PutC; loop of CompleteReadOperation | invariant: what is on the wire is a sequence of chunks of what was written, less what is in the buffer; receiver of RFC 7230 as specification; induction over the calls |
| C60 | `HttpEncode`/`HttpDecode` on character lists, with the Printf model of C56 for the codes; `BuildUrl`, `StoreCommands`, the request line of `ReadHeader`, `HandlePostApplicationForm` on the token model of C25. The stream is the list of characters that are left. | Percent-coding as an inductive relation (both cases of digits, any character coded); requests built from parts; induction over the parts and commands. |
| C61 | The whole of `ReferenceContainer::Find` with the two filters (model of C06/C07), constructors of the filters, `Delete(path)`. Trees, one thread. | The places of a tree listed by structural recursion (chain down to the object, tree without it); induction on the size of the tree, both directions. |
| C62 | `ReferenceContainer::Initialise`, `Reference::Initialise` and the lists of marks on the model of the configuration database (C36) with any history; classes are a parameter. Proved by induction over the tree below the current node against a function from trees to lists of objects, with the place where the building stops. |
| C63 | The tables of `JsonParser.cpp` run by the model of the parser (C51), with the second database that counts the blocks of lists, and the lexer (C52). Proved against the configuration in the standard form that a JSON document stands for, by induction over documents with an invariant on the tree of the counters; texts through C52. |
| C64 | The operators of `DoubleInteger.h` on two bit vectors of any width, with the arithmetic shift of C++ for signed halves. Proved equal to the operations of a bit vector of twice the width. |
| C65 | `BSToBS` over an abstract word type, for the four machine types and for `DoubleInteger<uint64>`, which is proved to be a word of 128 bits (C64); the memory is a list of bytes. Proved bit by bit: which bits are written and that they decode to the nearest value. |
| C66 | The finite numbers of a format as integers in units of the least positive one, the operations with rounding to the nearest even (`Verif.Model.FloatNum`), and `FloatToInteger` over them. Proved with the exactness of the integral part and of the subtraction, and the rounding of the limits of each type. |
| C67 | `IntegerToFloat`, `FloatToFloat` and the conversions of booleans over the same numbers; proved with the theorem that the rounding gives the nearest number and that the greatest one is the nearest when it overflows. |
| C68 | `StringToNormalFloatPrivate` character by character over the same numbers; the exact part by induction over the digits (every prefix is exact), the decimals with an invariant of the error, `2^p * abs(10^k * part - W * 2^K) <= 3 k * 2^K * 10^k`, from the error of one rounding; exponents by a relative error that grows by one factor per rounding (three per power of ten, which is itself rounded at most twice), as long as the results stay normal; refusals by induction over the digits with any number. |
| C69 | `Insert(path, ref)` token by token over the trees of C07; refinement to `place`, a function on trees that does not use the tokenizer, by induction over the names; then what is found, kept and new by induction over the paths. |
| C70 | `ObjectRegistryDatabase::Find`: the climb over the chain of containers equals the choice of the n-th domain of the reversed chain; uses C61 for the search of the starting object. |
| C71 | `ReferenceContainer::Purge` over a memory of containers by identity; a relation between the memories before and after each step (kept or emptied, closed under contents, references conserved) that composes; fuel more than the number of references suffices. |
| C72 | `Matrix<T>` over a memory of cells, in both storages; the loops by one lemma about filling a grid of cells; the determinant by induction over the number of rows against `Matrix.det` of Mathlib (expansion along the first row), the inverse by the adjugate matrix. The arithmetic is exact. |
| C73 | The broker with its data source as a sequence of samples and the float64 arithmetic of C66; an invariant of the segment in use by induction over the calls, and the exactness of the four roundings for slopes with a power of two as denominator. |
| C74 | The array of records, its count and capacity, with reads outside of it as faults; an invariant (the records of the array are a permutation of the table) by induction over the operations. |
| C75 | The block of bytes with its offsets, the loops over functions and signals; disjointness of the pieces by sums of sizes, and the content of every piece by induction over the loops. |
| C76 | Pointers as lists of the bytes that follow, loops as recursions over them with reads and writes past the end as faults; induction over the text. |
| C77 | The service as its settings and a list of threads, each with its settings and those it was started with; the answers of the threads are inputs. Invariant over histories; the tables by induction over the rows. |
| C78 | The attributes as texts or lists of texts, read by the conversions of C15; the loops over a value with `operator[]` of `AnyType`, reads outside the memory as a distinct outcome. Each answer as a conjunction; the loops by coverage of the indices. |
| C79 | The memory as a function of the address, the conversion of one element as a parameter, the loops over vectors and rows with the `uint32` offsets of the code. Every loop is a fold over a list of pairs of places; induction over that list. |
| C80 | the two containers of the logger are the model of C23, each call run to its end by one thread; invariant: the pages are free, waiting or held, the contents of the waiting ones and what was delivered are what was logged | a call on a quiet container takes the highest element (descent in the tree), then induction over the calls |
| C81 | the lines of the header and of the form read with the model of GetLine and GetToken (C61); what is stored is the list of the calls of `Write`; the search of texts in lines as it is, and a quote that is not there as a distinct outcome | induction over the fields; induction over the parts of the form with an invariant on the variables of the loop, lemmas for the search of the attributes behind the name |
| C82 | `ComputeMaxNThreads`, `CreateThreadMap`, `SetupThreadMap` and the assignment in `CustomPrepareNextState`; the arrays as functions, a thread that finds no place as a distinct outcome | induction over states and threads; invariant: each place in use has the mask of its rows, the number of places with a mask is the most threads seen so far, so a free place is left by counting |
| C83 | `ClassRegistryDatabase`: `Add` with the saturating 14 bit identifier and the insertion by position, `Find` with the split of the name and the opening of libraries, `FindTypeIdName`, `Peek`; a library is the list of the classes that its initialisers register | induction over histories; invariant: the next identifier is the length, up to saturation, and positions are identifiers; the first item of a name is not changed by additions at the end |
| C84 | `IntrospectionStructure::Initialise`: the loop over the children, the sizes of the types, the text of the modifiers and its reading by the constructor of `IntrospectionEntry`, the registration; sizes and offsets modulo 2^32 | induction over the members with the running offset; the decimal text of a dimension is read back (C16) |
| C85 | HttpObjectBrowser: FindReference, FindTarget, GetAsText, GetAsStructuredData over the model of containers; SecurityCheck as a function of the realm; the roots of browsers may be cyclic. Pages and headers not modelled | induction over the words from the last; a general lemma that searches which remove nothing are defined and stay in the tree; strong induction on the length of the path for nested browsers |
| C86 | HttpDirectoryResource: fullPath, CheckExtension over the model of CompareNoCaseSensN (C76), the table of types, ServeFile, and the flag replyNotFound over histories with HttpObjectBrowser; the file system is a predicate | lexical resolution of names as specification; fold over the parts between slashes; induction over the history |
| C87 | MessageI::SendMessage over the model of containers (search by path and by reference), the counts of references that the temporary Reference to the sender changes, MessageFlags. What the destination does is C26 | composition of the exact lookups of C07, C61, C85; case analysis |
| C88 | `ConfigurationDatabase::Copy` between two databases of the heap model of C36 | simulation of C36 for every call of the copy; induction on the depth of the source and on its children, with the copied tree given as an overlay of maps from paths |
| C89 | `GAMBareScheduler`: the loop as a state machine against the calls of others, one access to `isAlive` and `nCycle` at a time | induction on the number of steps and on the interleaving |
| C90 | `RealTimeThread::ConfigureArchitecture`, `RealTimeState::AddStatefuls` and the search for all objects of a class, on the object trees of C30/C61. | Spec: where the thread lives (first application on the way, first state after it), the object of each declared function, the members of a class depth first. The path is found with C61, functions with the lookup lemma of C85; induction on the functions and on the tree. |
| C91 | HeapManager with MULTIHEAP_SUPPORT (the slots, AddHeap, RemoveHeap, FindHeap by address and by name, who is asked by Malloc/Free/Realloc/Duplicate), HeapI::Owns, and the range of addresses of StandardHeap with the C library as an environment; the unlocked update of the range as steps of two threads. | Simulation by a bounded set; induction on the slots with the best heap so far; monotonicity of the range over all histories; a schedule as a witness of the race. |
| C92 | The conversions between structures and configurations (Model/StructData.lean) on the tree of C36: the loop over the members, the names of elements `m[i][j]`, the two ways of looking for a member (by the names of the class in the configuration, by position), saving and restoring the current node. The conversion of one value and the reading of a text are parameters. | Simulation with the tree of Spec/ConfigDb.lean (C36), mutual induction over the structure; a growth invariant of the heap gives that the saved node is still at its path. |
| C93 | `StringToType`, `BooleanToType`, the same-type branch of `ScalarBasicTypeConvert` for texts, over the memory of C76 (`Model/TextConvert.lean`) | induction over the text; the three words for true with the comparison of C76 |
| C94 | `ObjectRegistryDatabaseMessageFilter::ConsumeMessage` over the tree of C06/C07 (`Model/RegistryMsg.lean`) | the search and the removing search run in step, by induction over the fuel (`rm_loop`), also when the object found has other contents |
| C95 | `DataSourceI`: Initialise, SetConfiguredDatabase, the queries by name and index, the brokers (`Model/DataSrc.lean`), over records of the configured database | induction over the signals and functions |
| C96 | `GAM`: `Initialise`, `SetConfiguredDatabase`, `AllocateInputSignalsMemory`, `GetInputSignalMemory`, `GetSignalNumberOfSamples`, `SortBrokers` (Model/GamSignals) | induction over the signals (offsets are the sums of the earlier sizes); invariant of the two loops of the sort (sorted part, skipped part, rest); the specification is a stable sort by rank |
| C97 | `Endianity`: swaps, From/To, MemCopy on x86, arm and ppc, `Type` (Model/Endian) | memory as a function; each swap is the reversal of its bytes; induction over the two directions of the copy loops |
| C98 | `StructuredDataIHelper` (Model/SdHelper) over any configuration | induction over the calls, against a relation that makes calls until the first failure; ReadEnum against the first pair of the list |
| C99 | `PrintStructuredDataI` with and without collapsed arrays, `JsonPrinter`, the JSON printing of vectors and matrices (Model/JsonPrint) on the database of C36, and the JSON parser of C63 | induction over the forest: what is printed is a list of pieces whose tokens are the words of a document; its configuration is the tree; then C63 |
| C100 | XMLParser (constant tables, terminals, comments), its actions, the printer of XML | induction over documents: the stack automaton runs through each element; the tree by the theorems of C51; characters to tokens by an invariant of the lexical analyser, which reads one character ahead after `<`; printed trees by induction over the tree, for any printer |
| C101 | StreamStructuredData: Write, all moves and creations, the flags of separators, the events given to any printer | induction over trees (exact text written, flags as invariants of a node) and over call sequences (open blocks = way to the current node); reading again through C63 |
| C102 | `LoggerConsumerI`: `LoadPrintPreferences`, `PrintToStream` (through the model of `Printf`, C56); `ReportError`, `ErrorCodeToStream`; `localtime_r` is a parameter; streams do not fail | each `Printf` of the function is computed with the theorems of C56; the line is the list of the fields after their marks; injectivity by induction over the fields |
| C103 | `PlainLoggerService`: `Initialise`, `Log`, `Purge`, `RegisterPlainLoggerService`, `UnRegisterPlainLoggerService`, `PropagateLog`; `SetErrorProcessFunction` and the call in `ReportError`; threads with steps at the borders of the critical sections | simulation of the history of one thread; an invariant over all schedules |
| C104 | the six forms of methods, their registration (`FindMethod`), the reading and writing back of parameters, `CallRegisteredMethod` and `RegisteredMethodsMessageFilter::ConsumeMessage`; a method is any function, a structured data any pair of `Read` and `Write` | the masks of references are computed for every list of at most four parameters; induction over the parameters that are written back; the disagreements for every message that meets them |
| C105 | the four `Compute` of `DjbHashFunction` and `Fnv1aHashFunction`, with memory that ends | the loops are folds; djb2 against the number with digits in base 33, FNV-1a against the recurrence on natural numbers; the multipliers are invertible modulo the powers of two |
| C106 | `Loader::Configure` (from the first loading on), the three `Reconfigure`, `ReconfigureImpl`, `ReloadLastValidConfiguration`; `RealTimeLoader::PostReconfigure` and `Stop`; the receiving loop of `ConfigurationLoaderTCP::Execute`. The registry is purged with the model of C71; the building of objects, `PostReconfigure` and the messages are any functions with a state | one theorem for each outcome of a call, and an invariant over histories; induction over the reads of the network |
| C107 | `ConfigurationParserI::End`, `ExpandExpression`, `BrowseExpressionVariables` on a database of nodes, leaves and a current node; the parser and the evaluator of expressions are any functions | simulation: each step of the parser is the step of the specification, induction over the variables and the expressions |
| C108 | `IOBufferFloatPrint.cpp` whole (normalisation by powers of ten, sizes of each notation, rounding, digits, exponents, padding), parametrised by the rounding `rnd` of the machine arithmetic; the numeral of the exponent is `Nat.repr`; a failing `PutC` is not modelled | width for any `rnd` by cases on the size functions; for `rnd = id`, invariants of the normalisation (x = m·10^e), of the loop of digits (digits of ⌊m·10^(p-1)⌋) and of the rounding; `decide +kernel` for the witnesses with IEEE `float32` |
| C109 | `MutexSem.cpp` (Linux) whole; the POSIX mutex as an automaton (owner, count, kind), what POSIX leaves undefined is `none`; the deadline of the timed lock with a rounding parameter | invariant over all schedules relating the mutex to the holder seen in the answers |
| C110 | `FastPollingEventSem.cpp` whole, one step per access to the flag or the clock | invariant over all schedules; induction over the schedule for the end of a wait |
| C111 | StreamMemoryReference over the IOBuffer of C18: memory of the caller, writable or constant; Read, Write, Size, SetSize, Seek, RelativeSeek, Position, CanWrite | refinement: every call of the buffer with its counters against a memory with a size and a cursor, induction over the calls |
| C112 | ConfigurationLoaderHashCRC (GetSeed, ComputeHash over C12) and the check in Loader::Reconfigure | the table against the division (C12); the register can be run backwards with an odd key, so that 32 bits are recovered from it; linearity |
| C113 | IntrospectionStructure.cpp:318-498: the walk over the nodes of the data, the names of the types, the scan for the elements of arrays, the table of the types and the order of the declarations; data as a tree of values and nodes | a specification of the types of a tree of members; induction over the members with the table split at the type being filled |
| C114 | RealTimeApplicationConfigurationBuilder.cpp:1493-1661, 3812-3836, 3941-3972 and RealTimeThread.cpp:67-163: the functions of each thread, the threads of each function in each state and the three checks; functions as a tree of names, the nodes States as a map | the functions of a thread are those below the listed paths (induction over the tree); the table is related to the history of what was added, by induction over states, threads and functions |
| C115 | RealTimeApplicationConfigurationBuilder.cpp:1921-2081, 2378-2463 and DataSourceI.cpp:102-144: the signals as a list of records, the checks of declared ones, the names | membership in the list after each step by induction over the names; different names are kept |
| C116 | `FlattenSignal`, `FlattenSignalsDatabase`, `CacheSignalIntrospections`, `SignalIntrospectionToStructuredData`: trees of nodes with properties, types as trees of members, the cursor left inside a keyword node, the check of SyncSignal overwritten by that of TriggerSignal | induction over the tree: membership of a flat signal is an inductive relation on the tree (`SignalAt`, `Gives`, `BasicMember`), acceptance is an equivalence with the checks, names are different by cutting at points and brackets; order by an append law and a law for namespaces |
| C117 | `GAM::SortBrokers` (the loop that takes brokers out and puts them at a position), `AddInputBrokers`, `AddOutputBrokers`, `DataSourceI::AddBrokers`, `RealTimeApplication::AddBrokersToFunctions` over a tree of functions | loop invariant of the two nested loops gives a closed form, which is a permutation, sorted by the first signal and stable; induction over the data sources and the tree |
| C118 | `AnyObject::Serialise` and `CleanUp` with the static functions for scalars, vectors, matrices on the stack and on the heap, and tensors, over a memory of numbered blocks with `Malloc`, `Free`, `Copy`, `Length`; reads outside a block and of freed or unwritten addresses are undefined (Model/AnyObject) | the loops put the blocks at known numbers (induction over strings and rows); an ownership predicate that depends only on the new blocks gives contents, independence and cleaning; induction over the sequence of values | 
| C119 | `Shift.h`: the four safe shifts on integers of any width and `LogicalRightShift` of a pair of signed halves; amounts are naturals | bit vectors to numbers (`toNat`, `toInt`), division of a two-half number by a power of two |
| C120 | `RealTimeApplicationConfigurationBuilder.cpp`: grouping of the signals of a function by data source (with its cache), `AssignFunctionsMemoryToDataSource` (with its cache), `AssignBrokersToFunctions`; trees as records, `GetBrokerName` a parameter | invariant of the groups and of the first cache; invariant of the data sources during one function; equality with the filtered lists of the specification |
| C121 | `MemoryArea.cpp`: `InitMemory`, `Free`, both `Add`, `GetPointer`; blocks are lists of bytes, the answers of the heap are arguments | refinement to the list of added bytes, by induction over the history |
| C122 | `AnyType.cpp` `operator[]`, `AnyType.h` `GetByteSize`, `GetDataSize`; addresses are numbers, the contents of tables of rows and texts are a function | case analysis and arithmetic modulo 2^32 |
| C123 | `OSWrite` of the Linux console as the list of its calls of `write`, with the pending piece and the column kept between calls | the loop equals a function of one character at a time; induction on the text against an inductive specification of wrapped text |
| C124 | the loop of `ReadHeader` that reads the body of a POST, over a socket given by a plan of reads | induction on the plan |
| C125 | `BufferedStreamI::Copy` with the local buffer, over plans of what the reads and the writes answer | induction on the plan of the reads |
| C126 | `ObjectToObject` over a memory of bytes and types of any depth; integers with saturation (C65), checks of attributes as any function | mutual induction on the type of the destination: frame, values, acceptance |
| C127 | `ServerCycle` and `ClientService` in the loop of `MultiClientEmbeddedThread`, with the answers of the system as inputs and what is done with each stream as a trace | invariant over histories on the part of the trace of each stream |
| C128 | `TypeDescriptor` (Model/TypeDesc): the union of bit fields as a number of 16 bits, with fields written over arbitrary previous content; constructors, comparison, numeric test, table of names | arithmetic of the fields; the finite table of names by the kernel, names and descriptors outside it by induction over the search |
| C129 | `Select` on Linux (Model/Select): three sets of descriptors and the highest one; the answer of `select` is an input | invariant (no descriptor above the highest) and refinement to a predicate over the history, by induction over the operations |
| C130 | `BasicTCPSocket` and `BasicSocket` on Linux (Model/TcpSocket): the answers of the operating system are inputs; each call that can wait is recorded with its longest time | conservation of the bytes by induction over the history; modes and limits by cases on the answers |
| C131 | `DirectoryScanner::Scan` on Linux (Model/DirScan), without a sorter; `scandir`, `fnmatch` and `stat` are given; the mask that the threads share | induction over the list of names |
| C132 | `RealTimeState::AddStatefuls`, `RealTimeState::PrepareNextState`, `RealTimeApplication::PrepareNextState` and `StartNextStateExecution` (Model/StateTold): what each object is told | induction over the objects, the states and the history |
| C133 | `Peek`, `Read`, `Write` (with and without timeout) and `Connect` of a UDP socket on a list of datagrams with their senders and a list of those sent | induction over the history: the successful reads are the datagrams cut at the size, the datagrams sent are those of the writes with the last destination |
| C134 | `LocalHostInfo` with its lock, the questions about the local host, the copy of the name of an interface and the descriptors it opens | induction over the history of questions; arithmetic on the numbers of addresses |
| C135 | `BasicUART`: the table of speeds, the descriptor with its two sets, `select`, the loop of `Read` over the parts that arrive | the table is strictly increasing; invariant of the sets over the history; induction over the parts |
| C136 | `HttpClient`: the setters, `Initialise`, `HttpExchange` with its repetition after a refusal, the options of the protocol that stay, `SearchKey`; the answers of the socket and of the server come with each request | invariant of the connection over the history; induction over the requests of an exchange; first place of a name in a text |
| C137 | `SingleThreadService` with `EmbeddedServiceI` and the settings of `EmbeddedThreadI`; what the system answers and when the thread ends comes with the operations | invariant over the history against the last setting given while off; cases of the configuration |
| C138 | `GlobalObjectsDatabase`: the table with its orders, `Add`, `Peek` and the loop of the destructor, for any size of the table | the loop against the concatenation of the objects of each order, by induction over the rounds; a permutation of what was added |
| C139 | `ErrorType` and its flags (`BitBoolean`) as a word of 32 bits with the operations on it | the bits of the word against a set of kinds, by induction over the history |
| C140 | `Vector`: pointer, size and ownership of any number of vectors, with a heap of blocks and the arrays of the program; freed memory that is used or freed is undefined behaviour | refinement to vectors as values (no pointers), with the invariant that each block belongs to one vector |
| C141 | `GAM`: `GetSignalIndex`, `GetSignalName`, ranges, byte offsets and frequency, on a list of signals and a list of data sources in memory | induction on the loops, against a separate statement of the first signal with a name and of the first data source with a frequency |
| C49,C50 | IntegerToStream in four notations with padding, StringToInteger dispatch | induction on digits |

## 4. Where the code disagrees with the property

Each line is a theorem of the model: a concrete call, history or schedule (checked by the kernel), or a general
statement. The property itself is then proved under the weakest condition found (the `_partial` theorems).

| property | disagreement | theorem |
|---|---|---|
| C01 | the capacity of a list of one byte elements wraps at 2^32; `operator[]` of an empty list reads outside of the block | c01_byte_list_overflows, c01_subscript_of_empty |
| C05 | Insert into a tree whose value list is full leaves a key without value | c05_full_values_leave_orphan_key |
| C07 | Find by path can return another object or miss the object; removing all occurrences uses freed memory | c07_wrong_object, c07_missed_object, c07_remove_all_use_after_free |
| C08 | `r = r->next` and assignment of the own raw pointer use freed memory; two threads releasing the last two references delete twice | c08_assign_from_member_use_after_free, c08_assign_own_pointer_use_after_free, c08_concurrent_double_delete |
| C09 | conversion of a BitSet to uint64 drops bits; comparison of a one word set with uint64 reads outside | c09_toU64_drops_upper, c09_eqU64_out_of_bounds |
| C10 | assigning a BitRange over a signed type overwrites every bit above the field | c10_signed_overwrites_above, c10_signed_neighbour_erased |
| C13 | SquareRoot of the minimum of a signed type is undefined behaviour | c13_int32_min_undefined |
| C14 | decoding adds a zero byte when the length is 1 mod 3 | c14_roundtrip_fails |
| C15 | texts longer than 1000 characters are cut silently | c15_long_text_truncated |
| C16, C50 | the minimum of a signed type is printed without its field | c16_minimum_ignores_padding |
| C17 | `operator-=(uint32)` truncates the timeout | c17_subMsec_breaks |
| C18 | RelativeSeek backwards moves the pointer twice (and can leave the memory); `s += s` reads freed memory; Tail of an empty text reads outside; SetSize(2^32) truncates; `==` ignores what follows a zero | c18_* |
| C19 | GetToken into an array of one character writes past it; wrong terminator when a token fills the array | c19_array_of_one_overflows, c19_array_wrong_terminator |
| C20, C21 | a short device write loses data; a failed Write repeats data on retry; a failed Read drops what the device delivered; the bytes before the end of the data are lost when more are asked for | c20_partial_os_write_loses_data, c20_failed_write_repeats_data, c21_failed_read_skips_data, c21_end_of_data_is_lost |
| C23 | a container created `taken` hands out owned elements; Take can fail with a free element while a Return runs; Take of an empty container returns 0 | c23_* |
| C24, C42 | spurious wake-ups and expired timed locks are taken for a Post; a Reset in the wrong place strands or releases threads | c24_*, c42_* |
| C25 | GetMessage reports a fatal error with two consumers or a spurious wake-up | c25_two_consumers_can_fail, c25_spurious_wakeup_fails |
| C27 | the comparison with the timeout in WaitForReply is inverted; a late indirect reply is reported as a timeout; a message that is no reply releases the catcher | c27_* |
| C29 | events of a state that was left still trigger; a failed self transition leaves the state deaf; one message can cause two transitions or be handled for ever | c29_* |
| C31 | large copies and offsets leave the ring | c31_*_leaves_ring |
| C32 | a full ring looks empty and then blocks for ever; first pass out of order; Flush returns early; an overrun repeats a record | c32_* |
| C33 | a late consumer misses a triggered sample | c33_late_consumer_misses_trigger |
| C35 | starting after a failed preparation goes back; a failed preparation renames; starting without stopping overruns; a preparation can hold threads back | c35_* |
| C37 | a failed CreateAbsolute moves to the root; creating through a value crashes; several leading dots are misread | c37_* |
| C38 | one precedence for the logical operators and one for the comparisons; deep nesting is mistranslated silently; a text that ends in `( name )` loops for ever; the text after an unknown token is ignored | c38_*_refuted |
| C39 | fast mode goes on after an arithmetic error and overruns the stack; RREAD and RWRITE are accepted as commands; compiling twice overlaps variables | c39_*_refuted |
| C40 | a full ring is frozen for ever; the synchronising signal reads old samples or fails for ever | c40_* |
| C43 | InitFunctionPointers writes past its table for several samples of a partial range, or zero samples | c43_*_overflows |
| C44 | SortByGAMAddress does not sort (without effect on the copies) | c44_sort_does_not_sort |
| C45 | sizes are added in 32 bits and wrap | c45_total_wraps |
| C47 | RelativeSeek while reading goes to the wrong place or byte; Seek after a large read delivers old bytes; reading over the end loses bytes | c47_* |
| C51 | a type that does not exist gives a string; what follows an unknown token is ignored; a block name with dots displaces what follows; a block below a value uses a null pointer; a value replaces a block silently | c51_*_fails, c51_block_below_value_crashes, c51_value_replaces_block |
| C52 | an empty comment `//` swallows the next line; a slash at the end of the text is lost; a lone backslash ends the file; a string that is not closed is accepted; line numbers drift after `\\n` in a string; the first PeekToken two places ahead inserts an end of file | c52_*_fails, c52_lines_fail |
| C53 | quotes and backslashes in strings are not escaped; names are not quoted; a node without children is printed as `{ }`, which is refused; the types of numbers are lost; the standard printer puts nothing between a number and the next name (`a =1b =2`) | c53_*_fail(s) |
| C54 | a stop given between the test and the command of a starting thread (EmbeddedThread.cpp:58-61) is overwritten; a killed thread runs on beside the next one (Threads.cpp:281 takes the failing join of a detached thread for a success) and deletes its description twice; timeouts are cut to 2^31-1 ticks; TimeoutStopping becomes Stopping again | c54_*_fails |
| C55 | AddThread tests the size and inserts later (MultiClientService.cpp:89-106): above the greatest number; MoreThanEnoughThreads and RemoveThread are not atomic: all threads leave; RemoveThread walks by index (113-127): an invalid reference is used, or the thread is not found and stays; after the pool was full a thread leaves although all others serve; MultiClientEmbeddedThread.cpp:54 overwrites a stop; a stop between lines 63 and 66 gives an end phase without startup | c55_*_fails |
| C56 | no way to print a percent (IOBuffer.cpp:1702-1760); PrintCCString subtracts the quotes from the size of the text although there is place (IOBuffer.cpp:439-530) and with a shorter text reads beyond it; zeros before the sign; padding lost for the minimum (C16); GetIntegerNumber wraps (FormatDescriptor.cpp); a character has its zero dimensions decremented (IOBuffer.cpp:1530) and is refused; null pointers make Printf fail; %x of a boolean prints an address; FormatDescriptor.cpp:203-218 moves beyond the terminator; J with X is no grammar; PrintStream counts the quotes in its limit of 10000 | c56_*_fails |
| C57 | RealTimeApplicationConfigurationBuilder.cpp:1000-1005 overwrites the answer of AddSignalToDataSource: a signal of another type, or one that a locked data source does not have, is accepted when the function does not declare NumberOfElements; a function before the one that declares them gets 1 element; sizes are multiplied in 32 bits (1459, 2533, 2549); a vector without NumberOfDimensions has 0 dimensions in the function and 1 in the data source (1007-1012, 1437-1450); with partly known structures functions may disagree on their types (1245-1284) | c57_type_fails, c57_order_fails, c57_size_fails, c57_locked_fails, c57_dimensions_fails, c57_full_type_fails |
| C58 | Md5Encrypt.cpp:391-398 stops after 64 bytes of the key; RFC 2104 asks to hash longer keys: codes for long keys differ from every other implementation, and keys that differ after byte 64 give equal codes | c58_long_key_ignored_fails, c58_long_key_fails |
| C59 | HttpChunkedStream.cpp:83-101 does not look at the size that the socket took: after a short send all calls answer success and the message cannot be decoded. SetCalibWriteParam makes large blocks bypass the chunk sizes (DoubleBufferedStream.cpp:219-233). HttpProtocol.cpp:106-136 does not decode chunks: sizes and ends of lines are delivered as content, and a piece that ends with 0, CR LF CR LF ends the message | c59_short_write_fails, c59_calibration_fails, c59_receive_chunks_fails, c59_receive_end_fails |
| C60 | A command of three characters or less (`x=1`) is dropped. `GET /a? HTTP/1.1` is refused: the version is taken for a command. `%2F` inside a part separates parts, because the URL is decoded before it is split. `HttpEncode` leaves tab, CR and LF (the URL ends there) and `;` (a posted value ends there); `+` of a form is not a blank. `%zz` decodes to a character without an error; `%4` at the end reads a variable that was not written. An error of the stream in the middle of `HttpEncode` is lost. | c60_short_fails, c60_empty_query_fails, c60_slash_fails, c60_newline_fails, c60_semicolon_fails, c60_plus_fails, c60_bad_code_fails, c60_cut_code_fails, c60_encode_error_fails |
| C61 | A search for all occurrences with `PATH` finds nothing: the number asked is replaced by one but the counter is not. A search that removes all occurrences reads the node it has deleted. | c61_all_paths_fails, c61_remove_all_fails |
| C62 | After a failure the objects made before stay in the container and the configuration is left at the node that failed; `+A` and `$A` give two objects with the name A; `RemoveBuildToken` of a character that is not there removes the last mark of a full list (`ReferenceContainer.cpp:401-430, 496-506`). |
| C63 | A list of blocks inside a list cannot be named `Idx` (`ConfigurationParserI.cpp:497-529`); empty objects and lists, and lists of blocks and values, are refused; commas and braces are optional; the casts of the grammar cannot be written, as `JsonGrammar` has no parentheses. |
| C64 | `<<=` and `>>=` of a signed `DoubleInteger` shift the lower half with its own sign (`DoubleInteger.h`), so the result is wrong whenever its most significant bit is set; `Shift::LogicalRightShift` of a negative number keeps the sign. |
| C65 | A negative number that fits a narrower signed field sets the bits that follow the field in its last byte (`BitSetToInteger.h:252-257` stores the whole source); integers with equal descriptors are copied byte by byte whatever their bit address (`TypeConversion.cpp:1004-1050`); the end of a field is computed in eight bits, so that large sizes copy up to 32 bytes over a variable. |
| C66 | NaN is neither above nor below the limits and is cast to a signed integer, which is undefined (`FloatToInteger.cpp:88`); `FloatToIntegerGeneric` ignores the bit address and the number of bits of a field and writes 1, 2, 4 or 8 bytes. |
| C67 | An integer is true only when it is 1 (`TypeConversion.cpp:191-213`) and integers of other sizes than 8, 16, 32 and 64 bits are answered `true` without storing; fields of bits are read and written as whole bytes. |
| C68 | The empty text, a sign, `.` and `E` alone are accepted as zero (`StringToFloat.cpp:131-199`); in `float32` the steps of the exponent begin at 32 (`StringToFloat.cpp:75-111`), so an exponent of 64 or more acts as 63; when the power of ten of the decimals overflows the rest of the text is accepted whatever it is (`StringToFloat.cpp:217-221`); so is what follows 1000 characters. |
| C69 | `Insert("A..B", ref)` inserts the object as `A` and answers `true` (the empty token ends the loop, `ReferenceContainer.cpp:171-229`); `.A` is refused although `Find(".A")` is accepted. |
| C70 | none. |
| C71 | none. |
| C72 | `Inverse` of a matrix with one row answers `true` with the result 0, because the determinant of the minor without rows is taken as 0 (`Matrix.h:799-822`, `904-928`); the operations into an operand (`A.Transpose(A)`) answer `true` with a wrong result; the index of a row in an array of all elements wraps at `2^32` (`Matrix.h:533`). |
| C73 | The slope is kept per signal, not per element, so all the elements of a vector have the slope of the last one (`MemoryMapInterpolatedInputBroker.h:230`); `y1v - y0v` wraps for `uint32` and `uint64`, so a decreasing signal gives wrong values or an undefined conversion; the result is truncated, so rounding gives 0 instead of 1 at the sample (`h:201`); when a call passes several samples the line begins at the last one used, not at the previous one (`cpp:197-216`). |
| C74 | `NewEntry` never reads the place `nOfEntries - 1`, so with 64 threads, after the one in place 62 ends, every new thread is refused (`ThreadsDatabase_Generic.cpp:80`); when `Realloc` fails `entries` is null and the capacity stays, so lookups read through null, and the next insertion starts from an empty table (`:240`); `GetThreadID(0xFFFFFFFF)` reads `entries[0xFFFFFFFF]` (`:166-181`). |
| C75 | With `AllowMultipleSamples` only the first sample of a signal gets its default or zero (`GAMDataSource.cpp:263-266`), and the product of size and samples wraps around (`:160`), so the block is smaller than the signal. |
| C76 | The portable `Concatenate` and `ConcatenateN` never write the end of the text (`StringHelper_Portable_Generic.cpp:182-187`), so `Copy` of `ab` over `xyz` gives `abz`; `Compare` and `CompareN` compare signed characters (`:71-78`), unlike the C library; `SearchLastChar` does not find the end; `ConcatenateN` reads one character after `size` (`:203`). `Substr` reads after the end when it begins there and wraps around for the largest `end` (`StringHelperExtras_Generic.cpp:234`). The portable file is built by none of the make files here, that use the C library. |
| C77 | `CreateThreads` does not pass the stack size of the service (`MultiThreadService.cpp:252-276`). When a thread cannot start, the earlier ones stay running and no further `Start` is accepted (`:294-303`). `Stop` keeps the error of the last request only (`:322`, `:338`), so it can answer that all is well and drop a thread that runs; it drops the threads with their settings, so after a restart the tables of the configuration are lost. The number of a thread is 16 bits, and a level of 256 in `PrioritiesLevel` is taken as 0 (`:157`). |
| C78 | Every element of a vector of `uint32` is checked as the first one (`ValidateBasicType.cpp:935` takes `value` for `at`). Rows and columns are exchanged (`:881-885`) and a row of a matrix is given the number of rows as its length (`AnyType.cpp:101`, `:107`), so in a matrix that is not square elements are not checked and, with rows allocated one by one, memory after a row is read. A limit out of the range of the type, a limit that is no number, `values` that are no list and attributes that do not parse are ignored. Texts in the attributes are cut to 63 characters. |
| C79 | Arrays of three dimensions are answered with true and not converted (`TypeConversion.cpp:1504-1515`). The offsets are `uint32` products (`:1079-1081`, `:1188`), so the part of an array after 2^32 bytes is not written and the beginning is written again. |
| C80 | `GetLogEntry` is documented to return the oldest page, but it returns the waiting page with the highest index: a message may be overtaken for ever (`c80_order_fails`). `LoggerErrorProcessFunction` copies 200 bytes whatever the length of the description (`c80_short_fails`, undefined behaviour for every shorter literal) and a text of 200 characters or more arrives without terminator (`c80_long_fails`). With a reader and two writers whose calls overlap `GetLogEntry` may return a page that was never added (`c80_overlap_fails`): going up after a failed descent the root count includes other subtrees. |
| C81 | A part whose name is not closed by a quote makes `HandlePostHeader` copy the memory after the end of the line until a quote is found (`c81_unclosed_fails`, for every such request). Files without a `Content-Type` line, or with a further field, lose their content (`c81_no_type_fails`, `c81_third_header_fails`); a part whose `filename` is in front of `name` is stored under the name of the file (`c81_order_fails`); empty lines of a content are dropped (`c81_empty_line_fails`); a boundary followed by another parameter is not recognised (`c81_parameter_fails`); names of fields depend on the case (`c81_case_fails`); a tab in a value becomes a space (`c81_tab_fails`). |
| C82 | `CreateThreadMap` takes a place for new when it was free in the state just before, not in all of them: with three states a thread of the pool is shared by real-time threads of different processors and bound to the wrong one (`c82_bound_fails`), with four the map is written at index 0xFFFFFFFF (`c82_memory_fails`). Two threads of one state bound to all processors get the same thread and only one is executed (`c82_all_fails`). A second `PrepareNextState` before the start doubles the pool (`c82_twice_fails`). |
| C83 | The identifier saturates at 16383: with 2^14 classes, one more gets the identifier of the last one and is inserted before it, so `Peek` of that identifier gives another class (`c83_unique_fails`). `a::C` and `b::C` are the same class as soon as any `C` is registered (`c83_prefix_fails`); the name of a library is cut to 128 characters without an error (`c83_long_fails`). |
| C84 | A member of an unknown type is accepted with size 0 (`c84_unknown_fails`); `NumberOfElements = 0` takes the room of one (`c84_zero_fails`); 65536 x 65536 elements take the room of one, so the next member overlaps (`c84_large_fails`); only three dimensions are seen (`c84_dimensions_fails`); a structure that is declared again with another size leaves the structures that contain it as they were (`c84_stale_fails`). |
| C85 | The realm of an HttpObjectBrowser inside another one is only asked when the path ends at that browser: `FindTarget` searches the whole path first (HttpObjectBrowser.cpp:187-215), so an object inside is answered to everybody (c85_inner_realm_fails). A missing name after a leading dot is answered with the page of the browser, not 404 (c85_dot_fails) |
| C86 | Paths are joined to BaseDir without any check (HttpDirectoryResource.cpp:153-160): with `../` every readable file of the machine is served (c86_outside_fails). `SetReplyNotFound(false)` (HttpObjectBrowser.cpp:333) is never undone: after one request of the page of the browser, a missing file of that directory gets no reply (c86_silent_fails) |
| C87 | `SendMessage` looks at `IsReply` first (MessageI.cpp:100): a message that was answered can never be sent again, with an indirect reply it even goes to its old sender (c87_again_fails). `Reference ref(sender)` (MessageI.cpp:109) on an object without references (on the stack, a member, global) destroys it, on a destroyed one is undefined behaviour (c87_sender_fails) |
| C88 | When `CreateRelative` fails in `Copy`, `destination.MoveToAncestor(1u)` is called all the same (ConfigurationDatabase.cpp:158): the current node of the destination is then the parent of what it was. |
| C89 | `MaxCycles = n` executes n + 1 cycles (GAMBareScheduler.cpp:85-88 compares before it increments); line 86 and line 65 overwrite the `false` of `StopCurrentStateExecution`; `CustomPrepareNextState` resets the counter of the state that is running. |
| C90 | `configured` is set even when the configuration failed (RealTimeThread.cpp:161): the second `ConfigureArchitecture` returns true and the thread executes only the functions before the missing one (`c90_again_fails`). |
| C91 | StandardHeap_Generic.cpp:75-83 updates its range without a lock: a block can be left out and its Free is refused (c91_race_fails, only with MULTIHEAP_SUPPORT). RemoveHeap(NULL) returns true (c91_null_fails). `data = realloc(data, ...)` loses the block when it fails (c91_leak_fails). LastAddress should be inclusive but is one past the end (c91_end_fails). |
| C92 | Without the name of a class in the node, or with a name that is not registered, members are read by position: a node with the members in another order is read with success into the wrong members (`c92_position_fails`). With the name of a registered class that has fewer members than the destination the read goes outside the array of its members (`c92_outside_fails`; no comparison of the number of members is made, TypeConversion.cpp:706). |
| C93 | An array of one character gets no terminator (`c93_one_fails`). A text that is no boolean is read as false, with success (`c93_garbage_fails`), so a boolean written to an array too short for it comes back false (`c93_bool_short_fails`). A text read into a StreamString is added at its position, so a value read twice is there twice (`c93_append_fails`). TypeConvert does not compare the sizes of two arrays of characters and copies the size of the source: a shorter destination is overrun; a char * too (`c93_overflow_fails`). |
| C94 | Loaded twice, a configuration is there twice and the second object is never found (`c94_twice_fails`). Purge of a path where nothing is can destroy an object elsewhere (`c94_wrong_fails`). |
| C95 | `Initialise` overwrites its result: with a node `Signals` an invalid `DefaultBrokerOptim`, or contents that could not be built, are accepted (`c95_initialise_fails`). The cache of names is never emptied (`c95_again_fails`). `GetSignalNumberOfSamples` also compares with the name that the function uses: with aliases it answers for another signal (`c95_samples_fails`). A broker is placed by the first signal of its class only: one that synchronises can run after the others (`c95_order_fails`). |
| C96 | sizes over 32 bits: `c96_wrap_fails`; missing size leaves pointers unwritten: `c96_unwritten_fails`; empty node: `c96_count_fails`; samples answered although no node has the data source: `c96_samples_fails`; failed container forgotten: `c96_initialise_fails` |
| C97 | ppc: `FromBigEndian` swaps every type but int16: `c97_from_big_fails`; overlapping copies depend on the processor: `c97_overlap_fails` |
| C98 | a value that cannot be converted is taken as missing: `c98_wrong_fails`; a refused value has been written: `c98_refused_written_fails` |
| C99 | nodes between, missing numbers or another order of the blocks of a list lose or repeat nodes with the answer yes: `c99_between_fails`, `c99_gap_fails`, `c99_order_fails`; an error is forgotten: `c99_forgotten_fails`, `c99_value_fails`; any bracket is taken for a list: `c99_bracket_fails`; no escapes: `c99_quotes_fails`; empty nodes: `c99_empty_fails`; the standard printer refuses lists: `c99_standard_fails` |
| C100 | The closing names of XML elements are not compared with the opening ones: `<A><b>1</c></d>` is accepted (`c100_closing_fails`). 100 levels of elements are refused although correct (`c100_depth_fails`). A comment right after `<` is not read as a comment (`c100_comment_fails`). XMLPrinter writes vectors as `[ 1, 2 ]`, which XMLParser refuses (`c100_printed_fails`). Declarations, attributes, empty elements and texts with blanks or slashes are refused (`c100_usual_fails`). |
| C101 | A block, a value and another block in the same node are written with two separators (`A {..}, y, , B {..}`), which is not JSON (`c101_separators_fails`, `c101_comma_fails`). Moving or creating with a path from the root to a node that has no first name in common with the current one closes all blocks, answers no and stays (unsigned loop counter, `c101_sibling_fails`). The documented refusal of `A.B.D` after `A.B`, `A.C` does not happen: `B` is written twice (`c101_again_fails`). MoveToRoot at the root answers no (`c101_root_fails`). |
| C102 | `ErrorCodeToStream` writes each name with its terminator, so a log line shows only the first of several errors; `Overflow`, `Underflow` and `OutOfRange` have no name and are printed as `NoError`; the thread identifier is never printed; the format `ItOoFm` of the documentation is refused; `ReportError` takes the line number as `int16` (`c102_codes_fails`, `c102_unnamed_fails`, `c102_thread_fails`, `c102_example_fails`, `c102_number_fails`) |
| C103 | `UnRegisterPlainLoggerService` reads the size of the list and puts the old routine back after it has released the lock: a logger registered meanwhile gets no message ever (`c103_race_fails`), and a message reported meanwhile is lost (`c103_lost_fails`). The routine put back is the one of the first use of the singleton (`c103_stale_fails`). A logger initialised twice, or destroyed without `Purge`, stays in the list (`c103_twice_fails`, `c103_destroyed_fails`). `PropagateLog` holds the lock while consumers run: one that reports an error waits for ever (`c103_noisy_fails`) |
| C104 | After a method with one parameter declared `T &` has been called and the parameter has been written back, the answer is a fatal error and no reply is made; if the writing fails the answer is no error (`ClassMethodCallerT.h:784-788` converts the negated answer of `Write`). A message without a stream sent to a method that takes a `StreamI` dereferences a null pointer (`ClassMethodCallerT.h:911-918`). `CallRegisteredMethod` with a structured data on the stack, for a method that takes a container, deletes it (`ClassMethodCallerT.h:881`). `RegisteredMethodsMessageFilter::ConsumeMessage` uses an invalid message before it tests it (`RegisteredMethodsMessageFilter.cpp:63-65`; not stated as a theorem). |
| C105 | A size of zero means that the input is a text: the hash of no bytes of data is that of the bytes up to the first zero, and memory is read after its end if there is none (`DjbHashFunction.cpp:54-60`, `Fnv1aHashFunction.cpp:54-60`). |
| C106 | Objects named in `KeepAlive` "shall not be purged", but those that are containers are emptied by `ObjectRegistryDatabase::Purge` (`Loader.cpp:190`). If the `PreConfiguration` message fails, the kept objects are registered a second time (`Loader.cpp:240-248`), and with `ReloadLast` the configuration that runs well is purged and built again. If the `PostConfiguration` message fails, the answer is an error although the configuration is loaded (`Loader.cpp:263`). A kept object written with `$`, or not at the root, makes `Configure` fail after everything has been loaded (`Loader.cpp:129-130`). `RealTimeLoader::rtApps` is never emptied: after a reconfiguration `Start` and `Stop` use the applications of the earlier configurations first (`RealTimeLoader.cpp:78`). `ConfigurationLoaderTCP` stops reading at the first read of fewer than 1024 bytes, so that a text cut by the network is truncated, waits for ever after a text of whole kilobytes if the client does not close, and does not ask for the hash (`ConfigurationLoaderTCP.cpp:153-167`; the last is not stated as a theorem). |
| C107 | After a variable with a path the database stays in its node (`ConfigurationParserI.cpp:461`), so that a later variable without a path, which should be one of the root, is looked for there: `"A.B + C"` uses `A.C` if there is one and is refused otherwise, while `"C + A.B"` is computed as meant. |
| C108 | with `float32` arithmetic the repeated multiplication by ten and the normalisation lose digits: 283 is printed `282.999992` and 160 `159.999990` with `%f`; 12.5 with `%.0f` is printed `12` (not half up, as the correction is inexact) |
| C109 | `Create` clears `closed` before the system calls: if they fail, later calls use a mutex that is not initialised; `Create` on an open semaphore initialises it again; `Close` races with the calls in progress; a timed `Lock` does not disable cancellation and `UnLock` of a recursive one enables it while still held; the deadline is cast to `int32` (undefined from 2038) and computed in `float64` |
| C110 | the constructor is documented to leave the semaphore unlocked but waits block; a `FastPost` followed by `Reset` between two polls is missed by waiting threads; `ticksStop` wraps |
| C111 | SetSize below the position (StreamMemoryReference.cpp:105-109, IOBuffer.cpp:1809-1820) leaves the position: UsedAmountLeft wraps and the next read takes bytes that are not content, then beyond the memory (c111_shrink_fails); RelativeSeek back moves the pointer twice (IOBuffer.cpp:1803-1804, c111_back_fails); SetSize truncates to 32 bits (c111_large_size_fails) |
| C112 | the hash is linear in the text and the seed (ConfigurationLoaderHashCRC.cpp:71-83, start 0): hashes can be forged without the key (c112_forgery_fails); the right hash is written in the error stream when another is offered (Loader.cpp:284, c112_disclosed_fails); the seed is not consumed (Loader.cpp:276-293, c112_replay_fails); the key zero is accepted (c112_zero_key_fails); ConfigurationLoaderTCP reconfigures without asking for the hash (ConfigurationLoaderTCP.cpp:166) |
| C113 | After a structure the scan for further elements of an array also takes the first child that is not one (GetToken succeeds without a bracket and the index is advanced past the child that ended the loop, IntrospectionStructure.cpp:402-424): the member that follows a structure is never registered (`c113_dropped_fails`). Two structures with the same type name are refused, although the declaration of the type would be the same (`c113_twice_fails`). |
| C114 | ConfigureThreads uses the container Threads of each state without checking that it was found (RealTimeApplicationConfigurationBuilder.cpp:3959-3962): a state without threads makes the application use a null pointer, and the report of line 1654 is never reached for it (`c114_no_threads_fails`). The search for Threads goes over as many objects of the state as the application has, not the state (line 1512): a state with that many objects before its threads is refused (`c114_position_fails`). |
| C115 | AddTimingSignals adds CurrentState without looking whether it is there (RealTimeApplicationConfigurationBuilder.cpp:2440-2455), unlike all other timing signals: a CurrentState that was declared, or that a function uses, with another type or with more elements is accepted; afterwards two signals have this name, and the brokers, which ask for the name, get the one of 32 bits whatever type the function has (`c115_current_fails`). |
| C116 | The result of the check that a structured signal has both SyncSignal and Frequency is overwritten by the check of TriggerSignal and Trigger: a frequency without SyncSignal is silently ignored (`c116_sync_fails`); an array of structures with a frequency is always refused (`c116_sync_array_fails`); a signal without type that contains Defaults or MemberAliases is read from inside that node and loses its data source (`c116_cursor_fails`); a signal called Locked is dropped (`c116_locked_fails`); an alias for A.b1 is also given to A.b10 (`c116_alias_fails`) |
| C117 | Only functions directly in `Functions` have their brokers sorted: the same function inside a container executes them in the order of the data sources (`c117_nested_fails`) |
| C118 | `AnyObject.cpp:269-287, 420-426`: when one string of an array is NULL the loop stops, the rest of the table is not initialised, and `CleanUp` frees those addresses. `AnyObject.cpp:468`: `CleanUp` does not free the block of an array of addresses. `AnyObject.cpp:369`: the object is cleaned before the value is read, so its own value is read after it was freed. `AnyObject.cpp:259, 119`: sizes are products modulo 2^32. `StandardHeap_Generic.cpp:66`: `Malloc(0)` is NULL, so an empty vector of numbers cannot be kept. |
| C119 | The mathematic right shift of a negative number by the size of its type or more gives 0 where every smaller amount tends to -1 (`c119_math_right_fails`). The logical right shift of a `DoubleInteger` of signed halves shifts each half arithmetically, so the sign of the lower half overwrites the bits coming from the upper one and the upper half is filled with its sign (`c119_double_right_fails`). |
| C120 | A function without signals has no node `Memory`, and the whole configuration is refused without a message (`c120_idle_fails`). An alias that is an empty text counts as no alias when the signal is added to the data source, but is copied as it is to the brokers (`c120_alias_fails`). The caches are keyed by the name of the function: with two functions of one name (`+A` and `$A`) a signal of the second may be told to another data source (`c120_names_fails`). |
| C121 | When `Realloc` fails, `memory` becomes `NULL` while `size` stays: the old block is lost and `GetPointer` answers addresses counted from `NULL` (`c121_refused_fails`). The new size is computed in 32 bits: past 4 GB the block shrinks and the copy goes out of it (`c121_wrap_fails`). A block given with size zero to `InitMemory` is lost by the first `Add` (`c121_initial_fails`). |
| C122 | A row of a matrix is given the number of rows as its number of elements: with more columns than rows the last columns are refused, with fewer an address past the end of the matrix is given (`c122_matrix_fails`). The introspection of a registered class is used without a test (`c122_introspection_fails`). |
| C123 | The first line of a console has one character more than the columns (`c123_first_fails`); a console whose scene size was not set adds a line break after its first character and doubles every line break (`c123_unset_fails`); a line that is just full is followed by an empty line (`c123_full_fails`). |
| C124 | Each read asks for a full buffer whatever is left of the length announced: the beginning of the next request becomes the end of this body and is lost to the next (`c124_next_fails`). |
| C125 | A source that cannot be read leaves the size as it was, and 256 bytes that were never set are written to the destination (`c125_unreadable_fails`); the size that a write takes is not looked at (`c125_room_fails`). |
| C126 | A conversion that is refused is not undone: the members before the refused one are changed (`c126_atomic_fails`) and the value that the check refused is in the destination (`c126_refused_fails`). |
| C127 | A connection that is being served when the service is stopped is neither closed nor freed (`c127_stop_fails`); nor is one that cannot be made blocking or waited on (`c127_blocking_fails`). |
| C128 | `FractionalInteger.h:731` and `TypeDescriptor.h:96`: class identifiers have 14 bits and keep the largest value, so the 16384th and all later registered classes have the same identifier and equal type descriptors (`c128_range_fails`). |
| C129 | `Select.cpp:371-374`: `select` is called with the sets of the object, so a descriptor that is not ready at the end of a wait is no longer watched, and the next wait returns -1 at once (`c129_again_fails`). `Select.h` says that a removed handle is not set, but `IsSet` looks at the three modes (`c129_remove_fails`). Descriptors from 1024 on are written outside of the sets (`c129_large_fails`). A refused handle may be watched in part (`c129_refused_fails`). |
| C130 | `BasicTCPSocket.cpp:414-416` and `463-465`: the limit is made from whole milliseconds, and for the operating system a limit of zero is none, so a read or write with `TTNoWait`, or any timeout below one millisecond, waits for ever on a blocking socket (`c130_nowait_fails`). `258-302`: the second try to accept waits again, so the total is twice the timeout (`c130_accept_fails`). `70-86`: `Open` does not set `isBlocking` (`c130_open_fails`). |
| C131 | `DirectoryScanner.cpp:146`: the path of each file is made in 512 bytes without a test, so a longer one is written outside (`c131_long_fails`). `54` and `228`: the mask is one variable of the whole program, so that two scans at the same time use the mask of each other, or one that was freed (`c131_threads_fails`). |
| C132 | `RealTimeApplication.cpp:473-494`: when no state has the name the loop ends without error, so all the data sources are told of a change that the scheduler then refuses (`c132_unknown_fails`). `503`: the name of a refused state is stored, and a start makes it the current one (`c132_refused_fails`). |
| C133 | A datagram longer than the read loses its end without a sign (`c133_cut_fails`); an empty datagram is taken and answered like an error (`c133_empty_fails`); a refused `Connect` leaves the new port and the address 0.0.0.0 as the destination, where the next write goes (`c133_refused_fails`); a timeout of zero is no limit (`c133_nowait_fails`). |
| C134 | `LocalHostInfo::Init` releases its lock only when everything succeeds, so that `GetLocalHostName` and `GetLocalAddress` never return on a host whose name is not resolved (`c134_unknown_fails`); fifteen bytes of the name of an interface are always copied, beyond the end of shorter names (`c134_interface_fails`); `GetMACAddress` never closes its socket (`c134_open_fails`). |
| C135 | A speed that is refused is replaced by the next higher one (`c135_speed_fails`); `Close` does not remove the descriptor from the sets, so that after an opening with a higher descriptor every wait fails (`c135_again_fails`); `Open` of a port that does not exist calls `FD_SET` with -1 (`c135_open_fails`); the timeout of `Read` starts again at each part (`c135_time_fails`); a failed `Read` tells a size of 4294967295 (`c135_size_fails`). |
| C136 | A server that keeps refusing gets the same request again without end, by recursion (`c136_endless_fails`); a refusal that closes the connection makes the exchange answer true with nothing (`c136_closed_fails`); an authorisation that is taken back stays among the options and is sent, also to another server (`c136_taken_back_fails`); a new configuration sends the old key first (`c136_renewed_fails`); `nonce` is found inside `cnonce` (`c136_key_fails`); a value without a closing quote is read beyond the end of the text (`c136_quote_fails`) |
| C137 | A timeout of 2³¹ ticks or more becomes 2³¹-1 ticks in the thread, while the service tells what was given (`c137_long_fails`); a configuration without a timeout is refused after its other settings are in force (`c137_refused_fails`); a running service accepts a configuration whose settings it ignores (`c137_running_fails`) |
| C138 | An object that is added to a full table is dropped without a word and never destroyed (`c138_full_fails`); an object with an order that is not below the number of places takes a place and is never destroyed (`c138_high_fails`; the header states the bound as a precondition) |
| C139 | `ErrorType(true)` has no error and `operator=(true)` is a fatal error, so that a boolean that is assigned and read again is negated (`c139_assigned_fails`) |
| C140 | Assigning to a vector another one that was made on its memory frees the memory and keeps the pointer (`c140_view_fails`); a copy of a vector on an array of the program is not independent (`c140_copy_fails`) |
| C141 | A refused name changes the index of the caller (`c141_refused_index_fails`); the frequency of a signal whose data source is not found is answered with success and no value (`c141_frequency_fails`) |

## 5. What is not modelled

* Everything that is not cited by a definition in `lean/Verif/Model`: in particular floating point, the type
  descriptors and `AnyType`/`TypeConversion`, the XML and Json languages (their tables and actions; the analyser of Json texts is modelled), HTTP, sockets and files themselves
  (a file is a sequence of bytes with an offset), threads (a thread is a sequence of atomic steps), the heap
  (allocation always succeeds), the loggers, Printf format descriptors, `Introspection`, plug-in loading.
* Within the modelled files, the notes of MANIFEST.json and the comments in the models say what is left out.
* Liveness is stated only where it does not depend on the fairness of the operating system (a bound on the number
  of own steps, or "some step is enabled").
