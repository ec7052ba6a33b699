{"id": "C01", "title": "StaticList behaves as a bounded sequence", "statement": "Starting from an empty StaticList, after any sequence of Add, Insert, Set, Remove, Extract and Clean calls, GetSize and Peek report exactly the sequence obtained by performing the same operations on an ideal list; a call that returns false leaves the contents unchanged; no call reads or writes outside the allocated capacity.", "quantifier": "every element type size, every allocation granularity, every list of operations, every position argument", "why_tests_cant": "the claim ranges over unbounded operation histories interleaving capacity growth and shifts; tests exercise a handful of fixed scripts", "anchors": ["Source/Core/BareMetal/L1Portability/StaticListHolder.cpp: StaticListHolder::{Add,Insert,Peek,Remove,Extract,Set,IncreaseCapacity}", "Source/Core/BareMetal/L1Portability/StaticList.h"]}
{"id": "C02", "title": "LinkedListHolder behaves as a sequence and its size is exact", "statement": "After any sequence of ListInsert, ListAdd, ListInsert-at-index, ListExtract and ListDelete calls, walking the list visits exactly the elements of the ideal sequence in order, every element once, and ListSize equals its length.", "quantifier": "every history of operations on every list length, every index", "why_tests_cant": "pointer relinking bugs show only for particular positions in particular histories; no finite test set covers all shapes", "anchors": ["Source/Core/BareMetal/L0Types/LinkedListHolder.cpp", "Source/Core/BareMetal/L0Types/LinkedListable.cpp"]}
{"id": "C03", "title": "List sort returns an ordered permutation", "statement": "Sorting a linked list with a comparison filter relinks the same elements (no loss, no duplication) in an order in which no adjacent pair is out of order according to the filter.", "quantifier": "every list, every total preorder used as comparison", "why_tests_cant": "needs all list lengths and all orderings; tests use a few short literals", "anchors": ["Source/Core/BareMetal/L0Types/LinkedListable.cpp: BSort", "Source/Core/BareMetal/L0Types/LinkedListHolder.cpp: ListBSort"]}
{"id": "C04", "title": "UnorderedMap is a map", "statement": "After any sequence of Insert, Remove, Reset and growth steps, Search on a key succeeds iff the key was inserted and not removed since, and returns the value first stored for it; growing the table never changes any answer.", "quantifier": "every key type with a collision-free hash, every operation history, every bucket count", "why_tests_cant": "bucket collisions and rehashing points depend on the whole history", "anchors": ["Source/Core/BareMetal/L1Portability/UnorderedMap.h: Insert, Remove, Search, Resize, Reset"]}
{"id": "C05", "title": "BinaryTree lookups are exact", "statement": "After any sequence of Insert and Remove, Search succeeds exactly for the keys present and yields the element stored with that key; Insert of a present key fails and reports the existing element.", "quantifier": "every ordered key set, every operation history", "why_tests_cant": "binary search boundary errors depend on the position and parity of every possible sorted content", "anchors": ["Source/Core/BareMetal/L1Portability/BinaryTree.h: Insert, Remove, Search, BinarySearch"]}
{"id": "C06", "title": "ReferenceContainer keeps an ordered collection of references", "statement": "Insert appends or places at the given position, Delete removes the first occurrence of exactly that reference, Get/Size report the resulting ordered collection; invalid references are refused and leave the container unchanged.", "quantifier": "every history of Insert/Insert-at/Delete, every position", "why_tests_cant": "order after mixed positional insertions and deletions is history dependent", "anchors": ["Source/Core/BareMetal/L2Objects/ReferenceContainer.cpp: Insert, Delete, Get, Size"]}
{"id": "C07", "title": "Find by path returns the object at that path", "statement": "Find(\"A.B.C\") on a container succeeds iff there is a child named A holding a container child named B holding a child named C, and returns that object (the first one in order when names repeat).", "quantifier": "every object tree of any depth and width, every dotted path", "why_tests_cant": "tree depth and path shape are unbounded", "anchors": ["Source/Core/BareMetal/L2Objects/ReferenceContainer.cpp: Find", "Source/Core/BareMetal/L2Objects/ReferenceContainerFilterObjectName.cpp"]}
{"id": "C08", "title": "An object lives exactly as long as it is referenced", "statement": "For any history of creating, copying, reassigning and dropping references, an object is destroyed exactly once, exactly when the last reference to it disappears, and no live reference ever points to a destroyed object; with several threads dropping references concurrently the same must hold.", "quantifier": "every operation history; every interleaving of threads", "why_tests_cant": "double frees and leaks appear in particular histories and interleavings only", "anchors": ["Source/Core/BareMetal/L2Objects/Reference.cpp", "Source/Core/BareMetal/L2Objects/Object.cpp: IncrementReferences, DecrementReferences"]}
{"id": "C09", "title": "BitSet behaves as an array of bits", "statement": "After Set(i,b), Bit(i) is b and every other bit is unchanged; &,|,^,~ act bit by bit; << and >> move bit i to i+n / i-n filling with zeros; equality holds iff all bits agree.", "quantifier": "every bit count, every index, every content, every shift amount", "why_tests_cant": "word-boundary cases are unbounded in number", "anchors": ["Source/Core/BareMetal/L0Types/BitSet.cpp"]}
{"id": "C10", "title": "BitRange assignment saturates and leaves neighbours alone", "statement": "Assigning a value to a BitRange stores the value clamped to the representable range of the field, reading it back gives the clamped value, and no bit outside the field changes.", "quantifier": "every field offset and width, every previous word, every assigned value", "why_tests_cant": "the value space is 2^64 times all (offset,width) pairs", "anchors": ["Source/Core/BareMetal/L0Types/BitRange.h: operator=, operator BaseType", "Source/Core/BareMetal/L0Types/BitBoolean.h"]}
{"id": "C11", "title": "SafeMath detects overflow exactly", "statement": "Addition, subtraction and multiplication report overflow/underflow exactly when the mathematical result is outside the type's range, and otherwise return the exact result.", "quantifier": "every pair of operands of every integer width and signedness", "why_tests_cant": "2^128 operand pairs", "anchors": ["Source/Core/BareMetal/L1Portability/SafeMath.h: Addition, Subtraction, Multiplication"]}
{"id": "C12", "title": "CRC with a table equals bit-by-bit polynomial division", "statement": "For every generator polynomial, initial value and message, Compute with the table built by ComputeTable returns the remainder obtained by shifting the message bit by bit through the polynomial division register; with inputInverted the message is the bytes read backwards from the pointer.", "quantifier": "every polynomial, every initial register, every message of any length, both reading directions", "why_tests_cant": "messages are unbounded and the table has 256 entries per polynomial", "anchors": ["Source/Core/BareMetal/L0Types/CRC.h: ComputeTable, Compute"]}
{"id": "C13", "title": "Integer SquareRoot is the floor of the real square root", "statement": "FastMath::SquareRoot on unsigned integers returns the largest r with r*r <= x and always terminates.", "quantifier": "every x of 8, 16, 32 and 64 bit types", "why_tests_cant": "2^64 inputs; the non-termination at particular inputs is invisible to sampled tests", "anchors": ["Source/Core/BareMetal/L1Portability/FastMath.h: SquareRoot<uint8|uint16|uint32|uint64>"]}
{"id": "C14", "title": "Base64 decode inverts encode", "statement": "Decode(Encode(x)) returns exactly x, for every byte string x; Decode fails on any character outside the alphabet.", "quantifier": "every byte string of every length", "why_tests_cant": "lengths and bytes unbounded; padding classes combine with content", "anchors": ["Source/Core/BareMetal/L3Streams/Base64Encoder.cpp: Encode, Decode"]}
{"id": "C15", "title": "Decimal string to integer conversion is exact", "statement": "Converting an optionally signed decimal string to an N-bit integer succeeds iff its mathematical value fits in the destination type and then stores exactly that value.", "quantifier": "every digit string of any length, every width and signedness", "why_tests_cant": "boundary strings around every type limit and arbitrary leading signs/digits cannot be enumerated", "anchors": ["Source/Core/BareMetal/L4Configuration/StringToInteger.cpp: StringToIntegerDecimalNotation, StringToInteger"]}
{"id": "C16", "title": "Printing an integer and reading it back is the identity", "statement": "For every integer of every supported type, the decimal text printed on a stream, converted back to the same type, yields the same integer.", "quantifier": "every value of int8..int64, uint8..uint64", "why_tests_cant": "2^64 values; digit grouping boundaries", "anchors": ["Source/Core/BareMetal/L3Streams/IOBufferIntegerPrint.cpp: Number2StreamDecimalNotationPrivate, IntegerToStreamDecimalNotation", "Source/Core/BareMetal/L4Configuration/StringToInteger.cpp"]}
{"id": "C17", "title": "TimeoutType keeps its two views consistent", "statement": "However a timeout is built or decreased, its millisecond value is its microsecond value divided by 1000 saturated at the 32 bit maximum, decreasing never goes below zero, and an infinite timeout is never mistaken for a finite one after a zero decrement.", "quantifier": "every constructor argument and every sequence of decrements", "why_tests_cant": "64-bit argument space and unbounded sequences", "anchors": ["Source/Core/BareMetal/L1Portability/TimeoutType.h"]}
{"id": "C18", "title": "A StreamString is a byte sequence with a cursor", "statement": "After any sequence of Write, Append, Set, Seek, Read and SetSize calls, Size, Position, Buffer and Read report exactly the ideal byte sequence and cursor; the buffer is always zero terminated and no access leaves the allocated memory.", "quantifier": "every operation history, every byte content", "why_tests_cant": "reallocation points depend on whole histories", "anchors": ["Source/Core/BareMetal/L3Streams/StreamString.cpp", "Source/Core/BareMetal/L3Streams/StreamStringIOBuffer.cpp", "Source/Core/BareMetal/L3Streams/IOBuffer.cpp", "Source/Core/BareMetal/L3Streams/IOBuffer.h"]}
{"id": "C19", "title": "GetToken splits a stream into its tokens", "statement": "Repeated GetToken calls return, in order, exactly the maximal non-empty runs of non-terminator characters of the stream, together with the terminator that ended each of them.", "quantifier": "every stream content, every terminator set", "why_tests_cant": "stream contents are unbounded", "anchors": ["Source/Core/BareMetal/L3Streams/IOBuffer.cpp: GetToken, SkipTokens"]}
{"id": "C20", "title": "Buffered writing delivers every byte once and in order", "statement": "For any sequence of Write calls on a buffered stream followed by Flush, if every call succeeds then the device receives exactly the concatenation of the written data.", "quantifier": "every buffer size, every sequence of writes of every length", "why_tests_cant": "interaction of write sizes with buffer fill level is history dependent", "anchors": ["Source/Core/BareMetal/L3Streams/SingleBufferedStream.cpp: Write", "Source/Core/BareMetal/L3Streams/DoubleBufferedStream.cpp: Write", "Source/Core/BareMetal/L3Streams/BufferedStreamIOBuffer.cpp"]}
{"id": "C21", "title": "Buffered reading returns the device content without loss", "statement": "For any sequence of Read calls on a buffered stream, the concatenation of the bytes reported as read is a prefix of the device content, and nothing is skipped between two successive calls - including when the device ends in the middle of a request.", "quantifier": "every device content and every sequence of request sizes, every partial-read behaviour of the device", "why_tests_cant": "the loss depends on the relation between request sizes, buffer size and the end of data", "anchors": ["Source/Core/BareMetal/L3Streams/SingleBufferedStream.cpp: Read", "Source/Core/BareMetal/L3Streams/DoubleBufferedStream.cpp: Read"]}
{"id": "C22", "title": "FastPollingMutexSem gives mutual exclusion", "statement": "If every thread unlocks only after it has locked, then at no time do two threads hold the lock; a lock that reports a timeout is not held.", "quantifier": "every number of threads and every interleaving", "why_tests_cant": "interleavings cannot be enumerated by running the code", "anchors": ["Source/Core/BareMetal/L1Portability/FastPollingMutexSem.cpp"]}
{"id": "C23", "title": "A resource taken from FastResourceContainer is exclusively owned", "statement": "Take never returns an index that is already taken and not yet returned, never fails while a resource is free, and the size always equals the number of free resources.", "quantifier": "every container size and every history of Take and Return", "why_tests_cant": "the internal tree shape depends on the whole history", "anchors": ["Source/Core/BareMetal/L1Portability/FastResourceContainer.cpp: Take, Return", "Source/Core/BareMetal/L4Logger/Logger.cpp"]}
{"id": "C24", "title": "CountingSem is a barrier", "statement": "No caller of WaitForAll for N actors returns successfully before N calls have been made, and once N calls have been made every caller can proceed, unless the semaphore is reset.", "quantifier": "every number of actors, every interleaving of WaitForAll, Reset and ForcePass", "why_tests_cant": "race windows between counting and waiting", "anchors": ["Source/Core/Scheduler/L1Portability/CountingSem.cpp"]}
{"id": "C25", "title": "Queued messages are delivered once, in order, and never left sleeping", "statement": "Messages accepted by the queueing filter are handed to the consumer exactly once, in the order in which they were accepted, and the consumer is never left waiting while a message is in the queue.", "quantifier": "every number of producers, every interleaving", "why_tests_cant": "lost wake-ups exist only in specific interleavings", "anchors": ["Source/Core/Scheduler/L4Messages/QueueingMessageFilter.cpp", "Source/Core/Scheduler/L4Messages/QueuedMessageI.cpp"]}
{"id": "C26", "title": "Message dispatch picks the first accepting filter", "statement": "ReceiveMessage offers the message to the installed filters in order, stops at the first filter that accepts it, removes that filter iff it is not permanent, leaves all other filters installed and reports an error iff nobody accepted.", "quantifier": "every list of filters, every filter behaviour", "why_tests_cant": "arbitrary filter lists and behaviours", "anchors": ["Source/Core/BareMetal/L4Messages/MessageFilterPool.cpp: ReceiveMessage"]}
{"id": "C27", "title": "Waiting for a reply respects the timeout", "statement": "SendMessageAndWaitReply with a finite timeout returns success if the reply arrives before the timeout, and returns a timeout error only after the timeout has elapsed without a reply.", "quantifier": "every timeout, every reply arrival time, every clock reading sequence", "why_tests_cant": "timing-dependent; tests only check one or two delays", "anchors": ["Source/Core/BareMetal/L4Messages/MessageI.cpp: WaitForReply", "Source/Core/BareMetal/L4Messages/ReplyMessageCatcherMessageFilter.cpp: Wait"]}
{"id": "C28", "title": "The multi-reply catcher completes exactly when every reply has arrived", "statement": "A caller waiting for the replies of a set of messages is released exactly once, when the last of the expected replies arrives, regardless of the order of arrival; foreign messages never count.", "quantifier": "every set of messages, every arrival order with foreign messages interleaved", "why_tests_cant": "orders are factorial in the number of messages", "anchors": ["Source/Core/Scheduler/L4Messages/QueuedReplyMessageCatcherFilter.cpp: ConsumeMessage"]}
{"id": "C29", "title": "StateMachine follows its transition table", "statement": "After any history of received events the current state is one of the declared states; an event triggers only if it belongs to the current state, moves to its NextState when all its messages succeed and to NextStateError otherwise; only the events of the current state are listened to.", "quantifier": "every state machine definition, every history of messages and message outcomes", "why_tests_cant": "histories are unbounded, error paths combine with self loops", "anchors": ["Source/Core/Scheduler/L4StateMachine/StateMachine.cpp", "Source/Core/Scheduler/L4StateMachine/StateMachineEvent.cpp"]}
{"id": "C30", "title": "Memory-map brokers move exactly the configured bytes", "statement": "Executing an input broker makes each configured signal range in the function memory equal to the corresponding range in the data source memory (and an output broker the converse), and changes no other byte.", "quantifier": "every copy table with disjoint destinations, every memory content, every state buffer index", "why_tests_cant": "all layouts and contents", "anchors": ["Source/Core/BareMetal/L5GAMs/MemoryMapBroker.cpp", "Source/Core/BareMetal/L5GAMs/MemoryMapInputBroker.cpp", "Source/Core/BareMetal/L5GAMs/MemoryMapOutputBroker.cpp"]}
{"id": "C31", "title": "Multi-buffer brokers read and write circular buffers correctly", "statement": "Copying a signal of several samples from a circular data source buffer starting at any offset yields exactly the bytes met walking the ring from that offset, wrapping at the end of the buffer, for any copy size; it never accesses memory outside the buffer.", "quantifier": "every buffer size, offset, copy offset and copy size", "why_tests_cant": "wrap-around cases depend on four unbounded parameters", "anchors": ["Source/Core/BareMetal/L5GAMs/MemoryMapMultiBufferBroker.cpp: CopyInputs, CopyOutputs"]}
{"id": "C32", "title": "The asynchronous output broker is a lossless FIFO until overrun", "statement": "As long as Execute reports no overrun, the data handed to the data source by the consumer thread is exactly the data of the successive Execute calls, in order, each once; an overrun is reported exactly when the consumer has not freed the slot; Flush returns only after everything written before it has been consumed.", "quantifier": "every number of buffers, every interleaving of producer and consumer steps", "why_tests_cant": "interleavings and wrap-around of two indices", "anchors": ["Source/Core/Scheduler/L5GAMs/MemoryMapAsyncOutputBroker.cpp: Execute, BufferLoop, Flush"]}
{"id": "C33", "title": "The trigger broker stores exactly the pre-trigger, triggered and post-trigger samples", "statement": "With p pre-trigger and q post-trigger buffers, the samples marked for storage are exactly those whose distance to a triggered sample is at most p before or q after, in acquisition order.", "quantifier": "every trigger sequence, every p, q and number of buffers", "why_tests_cant": "trigger sequences are unbounded", "anchors": ["Source/Core/Scheduler/L5GAMs/MemoryMapAsyncTriggerOutputBroker.cpp: Execute, BufferLoop"]}
{"id": "C34", "title": "A real-time cycle executes its executables in order and stops at the first failure", "statement": "For each thread the execution list is, for each GAM in order, its input brokers, the GAM and its output brokers; a cycle runs the enabled ones in that order, and after a failure runs none of the following ones and reports the failure.", "quantifier": "every state/thread/GAM configuration, every pattern of failures and enable flags", "why_tests_cant": "arbitrary configurations and failure patterns", "anchors": ["Source/Core/BareMetal/L5GAMs/GAMSchedulerI.cpp: ConfigureScheduler, ExecuteSingleCycle, InsertInputBrokers, InsertGAM, InsertOutputBrokers"]}
{"id": "C35", "title": "State switching is double buffered", "statement": "PrepareNextState never alters what the running state executes; StartNextStateExecution makes the prepared state current; after any history of successful prepare/start pairs the running state is the last one started.", "quantifier": "every history of prepare and start requests, including failed ones", "why_tests_cant": "histories are unbounded; stale-buffer bugs need particular histories", "anchors": ["Source/Core/BareMetal/L5GAMs/RealTimeApplication.cpp: PrepareNextState, StartNextStateExecution", "Source/Core/BareMetal/L5GAMs/GAMSchedulerI.cpp: PrepareNextState", "Source/Core/Scheduler/L5GAMs/GAMScheduler.cpp"]}
{"id": "C36", "title": "ConfigurationDatabase stores and returns values", "statement": "After Write(name,v) at the current node, Read(name) at that node returns v; every other leaf and node anywhere in the tree is unchanged; Delete removes exactly that entry; GetNumberOfChildren/GetChildName enumerate the entries in insertion order.", "quantifier": "every tree, every history of writes, deletes and moves", "why_tests_cant": "tree shapes and histories unbounded", "anchors": ["Source/Core/BareMetal/L4Configuration/ConfigurationDatabase.cpp", "Source/Core/BareMetal/L4Configuration/ConfigurationDatabaseNode.cpp"]}
{"id": "C37", "title": "ConfigurationDatabase navigation is consistent and failure-atomic", "statement": "MoveToAncestor(k) after moving down k levels returns to the starting node; a failed Move leaves the current node unchanged; a failed Create leaves the current node and the tree unchanged.", "quantifier": "every tree, every path and number of generations", "why_tests_cant": "paths and depths unbounded; failure can occur at any path position", "anchors": ["Source/Core/BareMetal/L4Configuration/ConfigurationDatabase.cpp: MoveToAncestor, MoveRelative, MoveAbsolute, CreateNodes"]}
{"id": "C38", "title": "The math expression compiler respects precedence and associativity", "statement": "The stack-machine program produced for an expression computes the value of the expression under the usual precedence and left associativity of the operators.", "quantifier": "every well-formed expression of any nesting depth", "why_tests_cant": "expression nesting is unbounded and the parser is table driven", "anchors": ["Source/Core/BareMetal/L4Configuration/MathExpressionParser.cpp", "Source/Core/BareMetal/L4Configuration/ParserI.cpp"]}
{"id": "C39", "title": "A compiled RPN program never corrupts its stack", "statement": "If Compile succeeds then Execute never pops more than was pushed, never exceeds the allocated stack, never reads a variable outside the data memory and ends with an empty stack.", "quantifier": "every program text, every variable configuration", "why_tests_cant": "programs are unbounded", "anchors": ["Source/Core/BareMetal/L4Configuration/RuntimeEvaluator.cpp: Compile, Execute", "Source/Core/BareMetal/L4Configuration/RuntimeEvaluatorFunction.cpp"]}
{"id": "C40", "title": "The circular buffer data source returns the newest unread samples in order", "statement": "Each broker read returns the requested number of consecutive samples ending at the last produced one, in production order; the reads of the synchronising signal never repeat a sample; and the driver flags an overrun when a not yet read buffer is overwritten.", "quantifier": "every number of buffers, every interleaving of driver reads and synchronisations", "why_tests_cant": "interleavings and index wrap-around", "anchors": ["Source/Core/Scheduler/L5GAMs/CircularBufferThreadInputDataSource.cpp"]}
{"id": "C41", "title": "Integer conversions saturate", "statement": "Converting a number between integer types with SafeNumber2Number or through a FractionalInteger stores the value of the destination range closest to it, and SafeNumber2Number reports success exactly when the value was kept.", "quantifier": "every pair of integer types, every width of the fractional type, every value", "why_tests_cant": "the number of (type, type, value) triples is astronomically large and the code branches on signedness and usable sizes", "anchors": ["Source/Core/BareMetal/L0Types/TypeCharacteristics.h: SafeNumber2Number, SaturateInteger", "Source/Core/BareMetal/L0Types/FractionalInteger.h"]}
{"id": "C42", "title": "EventSem blocks until posted", "statement": "A successful EventSem Wait was in progress at a moment at which the semaphore was open (between a Post and the next Reset), and while it is open and every Post has returned no caller stays blocked.", "quantifier": "every number of threads, every interleaving of Wait, timed Wait, Post and Reset", "why_tests_cant": "lost and spurious wakeups depend on the exact interleaving and on the operating system", "anchors": ["Source/Core/Scheduler/L1Portability/Environment/Linux/EventSem.cpp: Wait, Post, Reset"]}
{"id": "C43", "title": "The broker copy table is filled exactly", "statement": "Initialising a broker writes exactly as many copy entries as it allocated, for every declared set of ranges and samples, and the entries describe exactly the declared ranges.", "quantifier": "every list of signals, ranges and sample counts", "why_tests_cant": "An overflow of the table needs a specific combination of ranges and samples; tests cover the usual ones only.", "anchors": ["Source/Core/BareMetal/L5GAMs/BrokerI.cpp: BrokerI::InitFunctionPointers, BrokerI::InitFunctionPointersOptim"]}
{"id": "C44", "title": "Optimised copies have the same effect as plain copies", "statement": "A broker initialised with the copy optimisation moves exactly the same bytes as one initialised without it, whatever the order and adjacency of the signals in both memories.", "quantifier": "every configuration, every memory content", "why_tests_cant": "Merging depends on the addresses of all signals; tests use a few layouts.", "anchors": ["Source/Core/BareMetal/L5GAMs/BrokerI.cpp: BrokerI::InitFunctionPointersOptim, SortByGAMAddress, FillCopyTable"]}
{"id": "C45", "title": "Signals of a memory data source never share memory", "statement": "In every state buffer each signal has its own area, large enough for all its buffers, inside the allocated memory, disjoint from the area of every other signal and state buffer.", "quantifier": "every list of signal sizes, number of buffers and state buffers", "why_tests_cant": "Only some sizes can be tried.", "anchors": ["Source/Core/BareMetal/L5GAMs/MemoryDataSourceI.cpp: MemoryDataSourceI::AllocateMemory, MemoryDataSourceI::GetSignalMemoryBuffer"]}
{"id": "C46", "title": "Interleaved and flat sample memory are inverse representations", "statement": "InterleavedToFlat places each byte of each member of each sample at its position in the member-major layout and FlatToInterleaved does the converse, so converting back and forth restores every byte; nothing outside the destination is written.", "quantifier": "every list of member sizes, number of samples and memory content", "why_tests_cant": "The position formula must hold for all sizes at once.", "anchors": ["Source/Core/BareMetal/L1Portability/MemoryOperationsHelper.h: InterleavedToFlat, FlatToInterleaved"]}
{"id": "C47", "title": "A buffered file is a file with a cursor", "statement": "Reading, writing, seeking, asking for the position and changing the size of a stream with one buffer over a seekable file give, call by call, what a plain file with a cursor would give; after Flush the file holds what the plain file would hold.", "quantifier": "every history of calls, every content and position, every buffer size", "why_tests_cant": "The buffer is shared by reads and writes and re-synchronised lazily; errors depend on the mix of modes, buffer content and seek distance.", "anchors": ["Source/Core/BareMetal/L3Streams/SingleBufferedStream.cpp: SingleBufferedStream::Read, Write, Seek, RelativeSeek, Position, SetSize, SetBufferSize", "Source/Core/BareMetal/L3Streams/BufferedStreamIOBuffer.cpp: NoMoreDataToRead, NoMoreSpaceToWrite, Resync"]}
{"id": "C48", "title": "Stacks and circular lists", "statement": "A stack gives back the elements last in, first out, and shows the element at any depth; a circular list always holds the last n elements pushed, gives back the one that drops out and knows the newest.", "quantifier": "every history of calls, every element size and allocation granularity", "why_tests_cant": "The stack is a growing array addressed from its end with unsigned arithmetic, the circular list wraps at any length; only all histories cover the boundaries.", "anchors": ["Source/Core/BareMetal/L1Portability/StaticStack.h: Push, Pop, Peek", "Source/Core/BareMetal/L1Portability/CircularStaticList.h: PushData, GetLast"]}
{"id": "C49", "title": "Hexadecimal, octal and binary notation are inverse of each other", "statement": "A number printed in hexadecimal, octal or binary with its header and converted back is the same number; a text in these notations is accepted exactly when its digits are digits of the base and fit in the bits of the type, and then gives that bit pattern.", "quantifier": "every value of int8..int64, uint8..uint64, every text, each notation, every zero padding", "why_tests_cant": "The number of digits is found by a cascade of comparisons and the last octal digit is a special case in every width; 2^64 values.", "anchors": ["Source/Core/BareMetal/L3Streams/IOBufferIntegerPrint.cpp: IntegerToStreamExadecimalNotation, IntegerToStreamOctalNotation, IntegerToStreamBinaryNotation", "Source/Core/BareMetal/L4Configuration/StringToInteger.cpp: StringToInteger"]}
{"id": "C50", "title": "A padded number fills its field exactly", "statement": "A number printed in a padded field of a given size takes exactly that many characters, on either side, and shows a question mark exactly when its text does not fit.", "quantifier": "every value of every integer type, every size, alignment, notation, zero padding", "why_tests_cant": "Sizes and numbers combine: the boundary is at each power of the base.", "anchors": ["Source/Core/BareMetal/L3Streams/IOBufferIntegerPrint.cpp: IntegerToStreamDecimalNotation, IntegerToStreamExadecimalNotation"]}
{"id": "C51", "title": "Parsing a standard configuration builds the described tree", "statement": "Parsing a configuration in the standard language into a database succeeds exactly when all its values exist and its blocks can be created, and the database then holds exactly the tree of named blocks, scalars, vectors and matrices that the text describes, in the order of the text; the rest of the database is unchanged.", "quantifier": "every configuration, nested up to the size of the parse stack, every previous content of the database", "why_tests_cant": "A table-driven parser with lookahead: the number of texts is infinite, and nesting, conflicts and the state kept between actions interact.", "anchors": ["Source/Core/BareMetal/L4Configuration/ParserI.cpp: ParserI::Parse", "Source/Core/BareMetal/L4Configuration/StandardParser.cpp: tables, Execute", "Source/Core/BareMetal/L4Configuration/ConfigurationParserI.cpp: CreateNode, AddLeaf, AddScalar, EndVector, EndMatrix, BlockEnd, End", "Source/Core/BareMetal/L4Configuration/AnyTypeCreator.cpp: Add, Create"]}
{"id": "C52", "title": "A text is cut into its words whatever its layout", "statement": "Separators, comments of both kinds and signs may be placed freely between words: GetToken and PeekToken give the same words in the same order, strings between quotes with any content and escapes, numbers as numbers, each with the line where it stands, then end of file; and a configuration text with any layout is parsed into the tree it describes.", "quantifier": "every sequence of words, every layout, every grammar with these comments or none, every sequence of calls", "why_tests_cant": "Characters are read one at a time with a lookahead buffer shared by comments, strings and escapes; the number of combinations at each boundary is infinite.", "anchors": ["Source/Core/BareMetal/L4Configuration/LexicalAnalyzer.cpp: GetToken, PeekToken, TokenizeInput, SkipComment, AddToken", "Source/Core/BareMetal/L3Streams/GrammarInfo.h: StandardGrammar, JsonGrammar", "Source/Core/BareMetal/L4Configuration/ParserI.cpp: GetNextTokenType"]}
{"id": "C53", "title": "A configuration that is printed and parsed again is the same tree", "statement": "Printing a configuration database (Printf with %!, or the standard printer) and parsing the text into a new database gives the same names, in the same order, at the same places, with the same strings and arrays of strings, and numbers as the text of the numbers; printing does not change the database that is printed.", "quantifier": "every history of calls that built the database, every tree below the current node, every array shape, every depth the parser allows", "why_tests_cant": "The trees, names and strings are unbounded, and the printer and the parser are separate programs: tests check a few texts of each.", "anchors": ["Source/Core/BareMetal/L3Streams/IOBuffer.cpp:PrintCCString", "Source/Core/BareMetal/L3Streams/IOBuffer.cpp:PrintStructuredDataInterface", "Source/Core/BareMetal/L3Streams/IOBuffer.cpp:PrintToStream", "Source/Core/BareMetal/L3Streams/IOBufferStandardPrint.cpp", "Source/Core/BareMetal/L3Streams/PrinterI.cpp:PrinterI::PrintStructuredDataI", "Source/Core/BareMetal/L3Streams/StandardPrinter.cpp", "Source/Core/BareMetal/L4Configuration/ConfigurationDatabase.cpp", "Source/Core/BareMetal/L4Configuration/StandardParser.cpp"]}
{"id": "C54", "title": "A service thread is started and stopped as asked", "statement": "The callback of a service is called by one thread at a time, with the stages in the order startup, main as long as it reports no error, termination or bad termination as its last answer says; once Stop has answered without error, or GetStatus has said off, it is not called until the next Start; a thread that is told to stop calls it at most twice more and ends, and Stop answers Timeout only if a timeout was set and has passed.", "quantifier": "every history of Start, Stop, GetStatus and SetTimeout, every interleaving with the service threads, every sequence of answers of the callback, every clock", "why_tests_cant": "The order of the steps of the owner and of the service thread decides; a test cannot force all of them, in particular the few instructions between a test and the command that follows it.", "anchors": ["Source/Core/Scheduler/L3Services/EmbeddedThreadI.cpp: EmbeddedThreadI::GetStatus, Start, Stop, SetCommands, SetTimeout", "Source/Core/Scheduler/L3Services/EmbeddedThread.cpp: EmbeddedThread::ThreadLoop", "Source/Core/Scheduler/L3Services/SingleThreadService.cpp", "Source/Core/Scheduler/L1Portability/Environment/Linux/Threads.cpp: BeginThread, Kill, IsAlive"]}
{"id": "C55", "title": "A service for several clients keeps between its least and its greatest number of threads", "statement": "The least number of threads is positive and below the greatest; once started and until it is stopped, the service has never more threads than the greatest number and never fewer than the least, no thread is lost or counted twice, one of them waits for the next client as long as the greatest number is not reached, every thread calls the callback as startup, waiting, serving and end follow each other, and a thread that is told to stop calls the callback at most once more and leaves its loop.", "quantifier": "every history of Start and of commands to stop, every interleaving of the threads, every sequence of answers of the callback, all limits", "why_tests_cant": "Threads add and remove threads concurrently: whether the limits hold depends on the instant at which two of them look at the pool.", "anchors": ["Source/Core/Scheduler/L3Services/MultiClientService.cpp: Initialise, AddThread, RemoveThread, Start, SetMaximumNumberOfPoolThreads, SetMinimumNumberOfPoolThreads", "Source/Core/Scheduler/L3Services/MultiClientService.h: MoreThanEnoughThreads", "Source/Core/Scheduler/L3Services/MultiClientEmbeddedThread.cpp: ThreadLoop"]}
{"id": "C56", "title": "A format prints each parameter in its field", "statement": "Printf writes the texts of the format as they are and each field %[flags][width][.precision]letter with the next parameter: texts, streams and booleans cut and padded to the width, in quotes with #; integers and pointers with exactly the digits of their value in base 10, 16, 8 or 2, padded as asked, or a question mark if they do not fit; floating point numbers (see C108) with the width, precision and alignment of the field and the notation of the letter; arrays element by element between the marks of the grammar. It succeeds only for well formed formats, and a parameter that cannot be printed makes it fail.", "quantifier": "every format, every width, precision and combination of flags, every integer, text, stream and array", "why_tests_cant": "Flags, widths, notations, sizes of the values and their texts combine without limit; each boundary between text and width is a case of its own.", "anchors": ["Source/Core/BareMetal/L1Portability/FormatDescriptor.cpp: FormatDescriptor::InitialiseFromString", "Source/Core/BareMetal/L3Streams/IOBuffer.cpp: IOBuffer::PrintFormatted, PrintToStream, PrintToStreamVector, PrintToStreamMatrix, PrintToStreamScalar, PrintCCString, PrintStream", "Source/Core/BareMetal/L3Streams/IOBufferIntegerPrint.cpp: IntegerToStreamPrivate"]}
{"id": "C57", "title": "An accepted application has signals that agree", "statement": "When the configuration of a real-time application is accepted, every signal of every function leads to exactly one signal of its data source, of the same type and number of elements; what a function copies lies inside that signal; the signals of a function lie one after the other in its memory and fill it; no element of a signal is written by two functions of the same state; nobody writes to the timing data source; a locked data source gets no new signals. A configuration in which every signal is described in the same way everywhere is accepted.", "quantifier": "every list of functions, states, signals, ranges, samples and data sources, in every order", "why_tests_cant": "Signals are matched by name across functions that are processed one after the other and complete each other's description; only some combinations and orders can be tried.", "anchors": ["Source/Core/BareMetal/L5GAMs/RealTimeApplicationConfigurationBuilder.cpp: ResolveDataSources, AddSignalToDataSource, CheckTypeCompatibility, ResolveConsumersAndProducers, VerifyDataSourcesSignals, VerifyConsumersAndProducers, BuildProducersRanges, CheckProducersRanges, ResolveFunctionSignalsMemorySize, ResolveFunctionsMemory"]}
{"id": "C58", "title": "MD5 digests and keyed codes are those of the standards", "statement": "Md5 gives the digest of RFC 1321 for every input; a context that is started, fed with the input in any pieces and finished gives the same digest, also when it is used again; Md5Hmac gives the code of RFC 2104 for every key and input.", "quantifier": "every input up to 2^32 bytes, every splitting into pieces, every previous content of the context, every key", "why_tests_cant": "A wrong constant, a wrong padding at one length in 64 or a carry of the length shows only for some inputs; the inputs and their splittings are unbounded.", "anchors": ["Source/Core/BareMetal/L1Portability/Md5Encrypt.cpp: Md5Context::Starts, Update, Finish, Process, HmacStarts, HmacFinish, Md5, Md5Hmac"]}
{"id": "C59", "title": "HTTP messages carry their content exactly", "statement": "When every call of an HTTP reply in chunks has answered success, the socket has got the header and a chunked message from which a receiver decodes exactly the bytes that were written, whatever calls wrote them, and finds its end; while the socket works all the calls succeed. A message that is received with Content-Length or in chunks gives exactly its content and leaves the bytes after it.", "quantifier": "every buffer size, every history of Write, PutC and Flush, every content, every failure of the socket, every splitting of the data that arrive", "why_tests_cant": "Chunk boundaries depend on the buffer size, on the mix of calls and on the sizes of the pieces that arrive; the combinations are unbounded.", "anchors": ["Source/Core/FileSystem/L4HttpService/HttpChunkedStream.cpp: HttpChunkedStream::Flush, FinalChunk", "Source/Core/FileSystem/L4HttpService/HttpService.cpp: HttpService::ClientService", "Source/Core/FileSystem/L4HttpService/HttpProtocol.cpp: HttpProtocol::CompleteReadOperation", "Source/Core/BareMetal/L3Streams/DoubleBufferedStream.cpp: DoubleBufferedStream::Write"]}
{"id": "C60", "title": "Requests are decoded to what the client coded", "statement": "HttpEncode gives a percent-encoding of any text and HttpDecode gives back the text from any percent-encoding of it; a request line METHOD /path?name=value&name=value VERSION gives the method, the parts of the path, the commands in their order with their names and values, and the version; a form that is posted gives its names and values.", "quantifier": "every text, every way of coding it, every list of parts, names and values, every version", "why_tests_cant": "Each character can be coded or not, in two cases of digits, and each is next to a separator in some request; the texts are unbounded.", "anchors": ["Source/Core/BareMetal/L4HttpService/HttpDefinition.cpp: HttpEncode, HttpDecode", "Source/Core/FileSystem/L4HttpService/HttpProtocol.cpp: BuildUrl, StoreCommands, ReadHeader, HandlePostApplicationForm"]}
{"id": "C61", "title": "A search finds exactly the asked occurrences", "statement": "A search of a container by name or by reference, for the n-th or for all occurrences, adds to the result exactly the objects asked, in the order of the containers or backwards, in the container alone or below it too; with PATH it adds the objects from the top down to the one found; with REMOVE it takes the object found out of its container and changes nothing else; when there are not as many occurrences it changes nothing.", "quantifier": "every tree of objects, every name and reference, every occurrence number and combination of modes, every previous content of the result", "why_tests_cant": "Depth, repetition of names and of references and the sixteen combinations of modes multiply; the traversal shares its state between levels.", "anchors": ["Source/Core/BareMetal/L2Objects/ReferenceContainer.cpp: ReferenceContainer::Find, Delete", "Source/Core/BareMetal/L2Objects/ReferenceContainerFilter.cpp: ReferenceContainerFilter", "Source/Core/BareMetal/L2Objects/ReferenceContainerFilterObjectName.cpp: Test", "Source/Core/BareMetal/L2Objects/ReferenceContainerFilterReferences.cpp: Test"]}
{"id": "C62", "title": "The objects built from a configuration mirror it", "statement": "Initialise of a container makes exactly the objects that the configuration describes: one for each child node whose name begins with a build or domain mark, in order, of the class written in the node, with the name of the node without its mark, a domain exactly for a domain mark, with the values of its parameters and, in containers, the objects below it; it answers true exactly when every such child is a node with a registered class that accepts its parameters, and then the configuration is left at the same place.", "quantifier": "every configuration tree with any history, every set of classes, every list of marks, every depth, every previous content of the container", "why_tests_cant": "The traversal moves a cursor shared by all levels, and one object that fails stops it at any depth; trees and classes are unbounded.", "anchors": ["Source/Core/BareMetal/L2Objects/ReferenceContainer.cpp: ReferenceContainer::Initialise, AddToken, RemoveToken, IsToken", "Source/Core/BareMetal/L2Objects/Reference.cpp: Reference::Initialise"]}
{"id": "C63", "title": "A JSON text becomes the tree it describes", "statement": "Parsing a text in the JSON language builds the tree that the text describes: a leaf for each value, vector or matrix, a node for each block, and for a list of blocks with the name n the nodes n[0], n[1], ...; braces without a name have no effect. The text is accepted or refused exactly as the same configuration in the standard language, and the two databases answer alike.", "quantifier": "every document with any nesting of blocks and lists up to the capacity of the parser, every layout and placing of commas, every previous history of the database", "why_tests_cant": "The parser is a set of numeric tables with a stack and look-ahead, with counters of the lists in a second database; nestings and histories are unbounded.", "anchors": ["Source/Core/BareMetal/L4Configuration/JsonParser.cpp: JsonParser tables and actions", "Source/Core/BareMetal/L4Configuration/ConfigurationParserI.cpp: CreateNodeV, CreateNodeVE, EndVectorB, AddLeaf, AddScalar, EndVector, EndMatrix, BlockEnd, End", "Source/Core/BareMetal/L4Configuration/ParserI.cpp: ParserI::Parse", "Source/Core/BareMetal/L3Streams/GrammarInfo.h: JsonGrammar"]}
{"id": "C64", "title": "Numbers of twice the width of a machine integer", "statement": "DoubleInteger of a type of n bits behaves as an integer of 2n bits with the same sign rule: addition, subtraction and the bitwise operators are those of the integers modulo 2^(2n), the six comparisons are those of the numbers, a shift to the left multiplies by the power of two, a shift to the right divides rounding down, a logical shift fills with zeros, and the construction from any integer keeps its value.", "quantifier": "every width of the half, every pair of numbers, every shift count, signed and unsigned", "why_tests_cant": "The carry between the halves depends on both numbers; a table of values cannot cover pairs of 128 bits.", "anchors": ["Source/Core/BareMetal/L0Types/DoubleInteger.h: DoubleInteger", "Source/Core/BareMetal/L0Types/Shift.h: Shift::LogicalRightSafe, Shift::LogicalLeftSafe"]}
{"id": "C65", "title": "Integer conversion between fields of bits", "statement": "Converting an integer field of 1 to 128 bits at any bit address into another one, of any size and signedness, stores the value of the destination type nearest to the one of the source, changes no other bit of the memory and, in the stream form, moves both addresses to the next bit; larger fields are refused and nothing is written.", "quantifier": "every memory, every pair of addresses, sizes and signednesses, every granularity of the pointers", "why_tests_cant": "Sizes, shifts and signs of both fields multiply to millions of layouts, each with all the values of 128 bits.", "anchors": ["Source/Core/BareMetal/L3Streams/BitSetToInteger.h: BitSetToBitSet, BSToBS", "Source/Core/BareMetal/L4Configuration/TypeConversion.cpp: IntegerToType, ScalarBasicTypeConvert"]}
{"id": "C66", "title": "Floating point numbers to integers", "statement": "TypeConvert of a finite floating point number to an integer stores the integer of the destination type nearest to it, ties away from zero, so that numbers beyond the type give its greatest or least integer; infinities give them too; the integer is stored in the destination and nothing else changes; destinations of more than 64 bits are refused.", "quantifier": "every finite number of both formats and the infinities, every integer type, every memory", "why_tests_cant": "There are 2^64 numbers, and the greatest integer of a type is often not a number of the format, so the comparison and the subtraction round.", "anchors": ["Source/Core/BareMetal/L4Configuration/FloatToInteger.cpp: FloatToInteger, FloatToIntegerGeneric", "Source/Core/BareMetal/L4Configuration/TypeConversion.cpp: FloatToType"]}
{"id": "C67", "title": "Conversions to floating point numbers and booleans", "statement": "TypeConvert of an integer to a floating point number gives the nearest number of the format, exactly the integer when it has no more digits than the significand, and then converting back gives the integer; float32 to float64 keeps the number and comes back; float64 to float32 gives the nearest finite number; NaN and infinities are refused; a boolean gives 1 or 0 in the whole integer and comes back; an integer other than zero is true.", "quantifier": "every integer of 8 to 64 bits, every number of both formats, every memory", "why_tests_cant": "The integers and the numbers are too many to enumerate, and the rounding of the cast decides the result.", "anchors": ["Source/Core/BareMetal/L4Configuration/IntegerToFloat.cpp: IntegerToFloat, IntegerToFloatGeneric", "Source/Core/BareMetal/L4Configuration/TypeConversion.cpp: FloatToFloat, IntegerToType, BooleanToType"]}
{"id": "C68", "title": "Texts to floating point numbers", "statement": "A text of a sign, digits, a dot with decimals and an exponent is converted to the floating point number that it denotes: exactly when it is a whole number of no more binary digits than the significand, with or without a positive exponent, and otherwise with an error of a few units of the last digit; any other text is refused.", "quantifier": "every sign, every list of digits and decimals, every exponent, every other character and what follows it, both formats", "why_tests_cant": "The error accumulates with each digit and depends on all of them; the texts are unbounded.", "anchors": ["Source/Core/BareMetal/L4Configuration/StringToFloat.cpp: StringToNormalFloatPrivate, AddExponent", "Source/Core/BareMetal/L4Configuration/TypeConversion.cpp: StringToType"]}
{"id": "C69", "title": "Insertion of an object at a path", "statement": "Inserting an object at a dotted path puts it there under the last name of the path, makes the containers that are missing on the way and changes nothing else, so that a search for the same path finds it and every other object is still at its path; it is refused, with no change, exactly when the path is taken or passes through an object that is not a container.", "quantifier": "every tree of objects, every path, every object", "why_tests_cant": "Any depth of the tree and any length of the path; what is kept quantifies over every object of the tree.", "anchors": ["Source/Core/BareMetal/L2Objects/ReferenceContainer.cpp: Insert(path, ref)"]}
{"id": "C70", "title": "Search from a domain", "statement": "A path that begins with n colons is searched in the n-th domain at or above the object where the search begins, and in the whole registry when there are fewer domains; without colons it is searched in the registry.", "quantifier": "every tree of objects, every set of domains, every number of colons, every path, every starting object", "why_tests_cant": "The answer depends on the whole chain of containers above the object, of any length.", "anchors": ["Source/Core/BareMetal/L2Objects/ObjectRegistryDatabase.cpp: Find"]}
{"id": "C71", "title": "Purge empties everything that can be reached", "statement": "Purging a container ends even when containers contain each other, empties every container that can be reached from it and no other, and drops each reference that they held exactly once.", "quantifier": "every graph of containers, with any sharing and any cycles, every starting container", "why_tests_cant": "Graphs with cycles of any length and shape; a purge that recursed before emptying would run for ever only on some of them.", "anchors": ["Source/Core/BareMetal/L2Objects/ReferenceContainer.cpp: Purge"]}
{"id": "C72", "title": "Matrix algebra", "statement": "The product, sum, copy, part and transpose of matrices are those of algebra, in either storage, are refused exactly when the dimensions do not fit and write nothing but the result; the determinant is the determinant, and the inverse, given exactly when the determinant is not zero, is the inverse.", "quantifier": "every dimension, every content, either storage of each matrix, every place of the matrices in memory", "why_tests_cant": "The determinant is a recursion over minors of any size; the identities hold for all contents.", "anchors": ["Source/Core/BareMetal/L0Types/Matrix.h: Product, Sum, Copy, SubMatrix, Transpose, Determinant, Inverse"]}
{"id": "C73", "title": "Interpolation of the samples of a data source", "statement": "After a reset, each call of an interpolating input broker gives, for every element of every signal, the value of the straight line between the two samples around a point that advances by the period, waiting for as many samples as that takes; when the data source fails or its axis does not move it answers false and writes nothing.", "quantifier": "every sequence of samples, period, number of calls, integer type", "why_tests_cant": "The state is carried from call to call; the result depends on rounding of each slope and on the relation of the period with all the sample times.", "anchors": ["Source/Core/BareMetal/L5GAMs/MemoryMapInterpolatedInputBroker.cpp: Execute, Reset, ChangeInterpolationSegments", "Source/Core/BareMetal/L5GAMs/MemoryMapInterpolatedInputBroker.h: Interpolate, ChangeInterpolationSegment"]}
{"id": "C74", "title": "The database of threads is a table", "statement": "The database of threads answers as a table by identifier: after any history of threads that begin and end, the lookup, the removal, the number of threads, the enumeration by index and the search by name are those of the threads that are there; a new thread is accepted whenever there is memory.", "quantifier": "every history of insertions and removals, every number of threads, every granularity of the array", "why_tests_cant": "The place of a record depends on the whole history of holes in the array and of its growth.", "anchors": ["Source/Core/Scheduler/L1Portability/Environment/Generic/ThreadsDatabase_Generic.cpp: NewEntry, RemoveEntry, GetThreadInformation, GetThreadID, GetInfoIndex, GetInfo, Find, AllocMore"]}
{"id": "C75", "title": "Signals exchanged between functions", "statement": "The signals of a data source between functions take disjoint memory, which begins at zero; when a state is left, every signal that a function reads and that nobody produced in that state gets its default value, or zero, and no other signal changes; the first change of state always does so, the later ones if it is configured.", "quantifier": "every list of signals with any sizes, samples, defaults and producers, every content of the memory, every state", "why_tests_cant": "The bytes written depend on the offsets of all the signals; an overlap or a stale value shows only for some combinations of sizes and states.", "anchors": ["Source/Core/BareMetal/L5GAMs/GAMDataSource.cpp: AllocateMemory, GetSignalMemoryBuffer, PrepareNextState, GetBrokerName, SetConfiguredDatabase"]}
{"id": "C76", "title": "Functions on texts", "statement": "The portable functions on texts that end with a zero (length, comparison with and without regard to the case, search of characters and texts, copy, joining) have the results of those of the C library, and so have the functions that join, cut into tokens and take a part; none reads or writes after the end of a text that fits.", "quantifier": "every text, every content of the memory after it, every size", "why_tests_cant": "Texts of any length and content; a missing end shows only when the memory was not clear.", "anchors": ["Source/Core/BareMetal/L1Portability/Environment/Generic/StringHelper_Portable_Generic.cpp: Length, Compare, CompareN, CompareNoCaseSensN, Concatenate, ConcatenateN, SearchChar, Copy, CopyN, SearchIndex, SearchChars, SearchLastChar, SearchString, SetChar", "Source/Core/BareMetal/L1Portability/Environment/Generic/StringHelperExtras_Generic.cpp: Concatenate, ConcatenateN, TokenizeByChars, TokenizeByString, Substr"]}
{"id": "C77", "title": "The settings of a pool of threads", "statement": "What a service with a pool of threads reports as the settings of a running thread is what the thread was started with; a setting is refused while a thread that it concerns runs and changes nothing else; the tables of the configuration reach the threads they name and are refused if they name others; starting starts all the threads or none, and stopping ends them all.", "quantifier": "every number of threads, every history of settings, starts, stops and ends of threads, every answer of the operating system", "why_tests_cant": "The outcome depends on the order of the calls and on which threads fail.", "anchors": ["Source/Core/Scheduler/L3Services/MultiThreadService.cpp: Initialise, CreateThreads, Start, Stop, SetPriorityClass, SetPriorityLevel, SetCPUMask, SetStackSize, SetTimeout, SetNumberOfPoolThreads, SetPriorityClassThreadPool, SetPriorityLevelThreadPool, SetCPUMaskThreadPool, SetStackSizeThreadPool"]}
{"id": "C78", "title": "Validation of a value by its attributes", "statement": "The validation of a value answers true exactly when every element of the value is not more than max, not less than min, has a text not shorter than min_size nor longer than max_size, and is among values, for those of these attributes that are given; it reads nothing but the value.", "quantifier": "every value, vector and matrix of every basic type, every combination of attributes", "why_tests_cant": "The answer must depend on each element, whatever the type and the dimensions; a bound in the wrong dimension shows only for some shapes.", "anchors": ["Source/Core/BareMetal/L4Configuration/ValidateBasicType.cpp: ValidateBasicType, PrivateValidate", "Source/Core/BareMetal/L2Objects/AnyType.cpp: operator[]"]}
{"id": "C79", "title": "Conversion of vectors and matrices", "statement": "The conversion of an array is refused, and changes nothing, when the destination is constant or the numbers of elements are not the same; otherwise every element of the destination becomes the converted element of the source at the same place, nothing else changes, and the answer tells whether every element could be converted.", "quantifier": "every vector and matrix of any size, stored in one block or by rows, of numbers or (vectors) texts, every conversion of the elements, every memory", "why_tests_cant": "Offsets of all elements for all dimensions and storages; a wrong stride shows only for some shapes.", "anchors": ["Source/Core/BareMetal/L4Configuration/TypeConversion.cpp: TypeConvert, VectorBasicTypeConvert, MatrixBasicTypeConvert, StaticToStaticMatrix, StaticToHeapMatrix, HeapToStaticMatrix, HeapToHeapMatrix"]}
{"id": "C80", "title": "The messages of the logger", "statement": "Every message given to the logger is handed out once, with its content, in the order in which it was given; a message is dropped only when all the pages are in use, a page is never in two hands, the number of logs is the number of messages that wait, and one execution of the service hands out all of them and frees their pages.", "quantifier": "every number of pages, every sequence of messages, reads and returns of pages, every description", "why_tests_cant": "What happens to a message depends on the whole history of the pages and, with several writers, on the schedule.", "anchors": ["Source/Core/BareMetal/L4Logger/Logger.cpp: LoggerErrorProcessFunction, GetPage, ReturnPage, AddLogEntry, GetLogEntry, GetNumberOfLogs", "Source/Core/Scheduler/L4LoggerService/LoggerService.cpp: Execute", "Source/Core/BareMetal/L1Portability/FastResourceContainer.cpp: Take, Return"]}
{"id": "C81", "title": "The fields of an HTTP request", "statement": "The header fields of a request are stored in their order with their values, whatever white space is in front of them, and what follows the empty line stays in the stream; the options that are written are read back as they were; a field is found under its name; the parts of a form are stored under their names with their whole content and, for files, with the name and the type of the file; nothing outside of the request is read.", "quantifier": "every list of fields and every form, names, values, contents and boundaries of any length, any characters after the header", "why_tests_cant": "Requests come from the network: any text may arrive, and a malformed one must not make the server read outside of it.", "anchors": ["Source/Core/FileSystem/L4HttpService/HttpProtocol.cpp: StoreInputOptions, WriteHeader, HandlePostMultipartFormData, HandlePostHeader, HandlePostContent"]}
{"id": "C82", "title": "The threads of the fast scheduler", "statement": "The fast scheduler has as many threads as the states can need; in every state each real-time thread is executed by a thread of its own, the other ones execute nothing, and each thread is bound to the processors of every real-time thread that it executes.", "quantifier": "every number of states, of threads and every processor mask", "why_tests_cant": "The map of the threads is built state by state from those before: what is wrong shows only for some orders of the states.", "anchors": ["Source/Core/Scheduler/L5GAMs/FastScheduler.cpp: ComputeMaxNThreads, CreateThreadMap, SetupThreadMap, CustomPrepareNextState"]}
{"id": "C83", "title": "The database of classes", "statement": "Every class that is registered gets an identifier of its own, with which Peek gives it back; a class is found by its name as soon as it is registered, by the program or by the library that the name asks for, and from then on the same name gives the same class with the same identifier, whatever is registered or looked for later; a search that fails changes nothing but the classes of the library that it opened.", "quantifier": "every history of registrations and searches, every set of libraries, every name", "why_tests_cant": "The identifiers are stored in type descriptors for the life of the program: they must stay right after any later registration, in any order.", "anchors": ["Source/Core/BareMetal/L2Objects/ClassRegistryDatabase.cpp: Add, Find, FindTypeIdName, Peek, GetSize", "Source/Core/BareMetal/L0Types/FractionalInteger.h: ClassUID", "Source/Core/BareMetal/L0Types/LinkedListHolder.cpp: ListInsert"]}
{"id": "C84", "title": "Structures declared in the configuration", "statement": "A structure that is declared with IntrospectionStructure has the members of the declaration, in their order, with their types and numbers of elements, one after the other without holes nor overlaps; its size is the sum of theirs; it is found under its name from then on; declaring it again replaces it, and nothing else of the database changes; a declaration that cannot be understood is refused and changes nothing.", "quantifier": "every declaration: any number of members, of any basic, registered or declared type and any numbers of elements; every database", "why_tests_cant": "The layout is used to read and write memory of signals by offset: it must be right for every combination of types and dimensions, also of structures within structures.", "anchors": ["Source/Core/BareMetal/L4Configuration/IntrospectionStructure.cpp: Initialise", "Source/Core/BareMetal/L2Objects/IntrospectionEntry.cpp: IntrospectionEntry, GetNumberOfElements, GetNumberOfDimensions", "Source/Core/BareMetal/L1Portability/TypeDescriptor.cpp: GetTypeDescriptorFromTypeName"]}
{"id": "C85", "title": "Who answers an HTTP request, and the realms", "statement": "A request to a tree of web objects is answered by the object at the longest part of the path that leads to one, which is given the rest of the path; if no part leads anywhere the reply is 404. If the realm of a browser refuses the credentials, nothing it contains is shown. Every request is answered, only by objects of the tree, and is refused only by a realm that refuses it.", "quantifier": "every tree of objects and browsers, every path, every realm and credentials", "why_tests_cant": "Trees, paths and nestings of browsers are unbounded; that no path reaches a protected object is a statement about all paths.", "anchors": ["Source/Core/FileSystem/L4HttpService/HttpObjectBrowser.cpp:HttpObjectBrowser::FindTarget", "Source/Core/FileSystem/L4HttpService/HttpObjectBrowser.cpp:HttpObjectBrowser::GetAsText", "Source/Core/FileSystem/L4HttpService/HttpObjectBrowser.cpp:HttpObjectBrowser::GetAsStructuredData", "Source/Core/FileSystem/L4HttpService/HttpObjectBrowser.cpp:HttpObjectBrowser::FindReference"]}
{"id": "C86", "title": "Files of a web directory", "statement": "A request for a file of a web directory is answered with that file, with the content type of its extension whatever the case, with 404 if it is not there, and never with a file outside the directory.", "quantifier": "every directory, path, file system and history of requests", "why_tests_cant": "That no path escapes and that no history changes the answers are statements about all texts and all histories.", "anchors": ["Source/Core/FileSystem/L4HttpService/HttpDirectoryResource.cpp:HttpDirectoryResource::GetAsText", "Source/Core/FileSystem/L4HttpService/HttpDirectoryResource.cpp:HttpDirectoryResource::ServeFile", "Source/Core/FileSystem/L4HttpService/HttpDirectoryResource.cpp:HttpDirectoryResource::CheckExtension", "Source/Core/FileSystem/L4HttpService/HttpObjectBrowser.cpp:HttpObjectBrowser::GetAsText"]}
{"id": "C87", "title": "A message reaches its destination and the reply its sender", "statement": "SendMessage delivers a message to the object at its destination and to nobody else, and records its sender; an indirect reply is delivered to the object that sent the message; a message that cannot be delivered is refused with an error and given to nobody; a message can be sent again after its reply has come.", "quantifier": "every registry of objects, every destination, every sender and every message", "why_tests_cant": "The registry is a tree of any shape that changes at run time, and the sender is only an address: that it is still the right object depends on the whole history.", "anchors": ["Source/Core/BareMetal/L4Messages/MessageI.cpp: SendMessage, FindDestination", "Source/Core/BareMetal/L4Messages/Message.cpp: MessageFlags, SetSender", "Source/Core/BareMetal/L2Objects/Reference.cpp: Reference(Object *), RemoveReference"]}
{"id": "C88", "title": "A copy of a configuration", "statement": "Copy puts below the current node of the destination everything that is below the current node of the source, values and nodes at every depth and in the same order; values of the same name are replaced, everything else in the destination, the whole source and both current nodes stay as they were; a node whose name is already taken makes it fail. A database copied into a new one cannot be told from the original.", "quantifier": "every history of calls on the source and on the destination, and every history of calls made afterwards", "why_tests_cant": "Trees have any depth and any number of children, and Copy walks both databases through their current nodes: what it leaves behind depends on the whole history.", "anchors": ["Source/Core/BareMetal/L4Configuration/ConfigurationDatabase.cpp: Copy, CreateRelative, MoveRelative, MoveToAncestor, Write"]}
{"id": "C89", "title": "The execution of a state without an operating system", "statement": "GAMBareScheduler executes the functions of the state cycle after cycle until StopCurrentStateExecution is called, which ends it after at most the cycle in progress; with MaxCycles it stops by itself after that number of cycles.", "quantifier": "every interleaving of the execution with calls of StopCurrentStateExecution and PrepareNextState, every MaxCycles and any number of cycles", "why_tests_cant": "The flag is written by two threads; which write is last depends on the schedule, and the executions have no bound.", "anchors": ["Source/Core/BareMetal/L5GAMs/GAMBareScheduler.cpp: StartNextStateExecution, StopCurrentStateExecution, CustomPrepareNextState"]}
{"id": "C90", "title": "A thread executes the GAMs of its functions", "statement": "When a real-time thread is configured and all the functions it declares are in its application, it will execute exactly the GAMs of those functions: function by function in declared order, and inside a group depth first in the order of the configuration. Each stateful object of those functions is then exactly once in the state that owns the thread, and no other state changes. If a declared function does not exist or the thread is not below a state of an application, the configuration is refused, each time it is tried.", "quantifier": "every object tree with clear names, every place of the thread, every list of declared functions, every nesting of groups, every assignment of classes to objects, every previous content of the state", "why_tests_cant": "the tests configure a handful of applications with one level of groups; they cannot cover every tree and every order of functions, and never configure the same thread twice after an error", "anchors": ["Source/Core/BareMetal/L5GAMs/RealTimeThread.cpp RealTimeThread::ConfigureArchitecture", "Source/Core/BareMetal/L5GAMs/RealTimeState.cpp RealTimeState::AddStatefuls", "Source/Core/BareMetal/L2Objects/ReferenceContainerFilterReferencesTemplate.h ReferenceContainerFilterReferencesTemplate"]}
{"id": "C91", "title": "A block of memory goes back to the heap it came from", "statement": "With several heaps, the database of heaps is a set of at most sixteen: a heap is added if it is not null, not there and there is space, and removed if it is there. A block asked from a named heap is freed, reallocated and duplicated in that heap as long as it is registered and not inside a smaller one; of nested heaps the innermost one that contains an address is found. A block of the standard heap can always be freed, whatever was allocated, reallocated or freed in between and by whichever threads.", "quantifier": "every history of additions and removals of heaps, all ranges of addresses, every history of requests to the standard heap with every answer of the C library, and every interleaving of two allocations", "why_tests_cant": "The tests use two heaps with fixed ranges and one thread; the range of the standard heap depends on all addresses that were ever returned and on the schedule.", "anchors": ["Source/Core/BareMetal/L1Portability/HeapManager.cpp: FindHeap, Free, Malloc, Realloc, Duplicate, AddHeap, RemoveHeap", "Source/Core/BareMetal/L1Portability/Environment/Generic/StandardHeap_Generic.cpp: Malloc, Realloc, Duplicate", "Source/Core/BareMetal/L1Portability/HeapI.h: Owns"]}
{"id": "C92", "title": "Structures in a configuration", "statement": "Writing a structure with declared members to a configuration under a name that is not used succeeds and adds one node with that name: the name of the class and then the members, in order and at every depth, one node for each element of a vector or matrix of structures; the rest of the configuration and the current position do not change. Reading it back, into a structure with any contents, with any calls in between that leave it there, gives the same structure. A name in use is refused with nothing changed, and where there is no node nothing is read. Without the name of the class the members are taken by position.", "quantifier": "all structures (any depth, any dimensions), all histories of the configuration with well-formed paths, all previous contents of the destination, all registries where the classes are registered as written or not registered", "why_tests_cant": "The structures, the vectors in them and the tree around them are unbounded; a test writes two or three shapes in an empty configuration.", "anchors": ["Source/Core/BareMetal/L4Configuration/TypeConversion.cpp: ObjectToStructuredData, RecurseStructureToStructuredData, StructuredDataToObject, RecurseStructureToObject", "Source/Core/BareMetal/L4Configuration/ConfigurationDatabase.cpp: Write, Read, GetType"]}
{"id": "C93", "title": "Texts read into character arrays, texts and booleans", "statement": "TypeConvert of a text (or of the text of a number or boolean) to an array of two or more characters leaves in the array the text, cut to what fits, with its end, and writes nothing outside. To a boolean it gives true exactly for true, yes and 1 in any case, and refuses what is no boolean. A boolean written as text and read back is the same. Into a StreamString it gives the text. No destination is written outside its memory.", "quantifier": "all texts, all sizes and contents of the destination", "why_tests_cant": "texts of every length against arrays of every size, and every spelling; tests try a few of each", "anchors": ["Source/Core/BareMetal/L4Configuration/TypeConversion.cpp: StringToType, BooleanToType, ScalarBasicTypeConvert, TypeConvert", "Source/Core/BareMetal/L1Portability/Environment/Generic/StringHelper_CLIB_Generic.cpp"]}
{"id": "C94", "title": "Messages that load and purge objects of the registry", "statement": "Delete with a path removes exactly the object that Find with this path finds, and nothing else. The purge message with Root removes that object with all that is in it and nothing else, without Root everything. The load message adds the objects of the configuration, in order, at the end of the registry or of the container at Root, all of them or none, and each can then be found by its name. A wrong Root, function or configuration is an error and changes nothing.", "quantifier": "all trees of named objects with distinct identities, all paths, all configurations", "why_tests_cant": "The tests use small trees with distinct names; the search by path behaves differently where names repeat along a path, and what must not change is everything else.", "anchors": ["Source/Core/BareMetal/L4Messages/ObjectRegistryDatabaseMessageFilter.cpp: ConsumeMessage", "Source/Core/BareMetal/L2Objects/ReferenceContainer.cpp: Delete, Find, Insert"]}
{"id": "C95", "title": "Answers and brokers of a data source", "statement": "A data source refuses a DefaultBrokerOptim that is neither true nor false. After SetConfiguredDatabase the index of a name and the name of an index are inverse to each other and know only the signals that are there. The number of samples of a signal is that of the first signal of a function that is connected to it. The brokers of a function are one for each class; for inputs those that synchronise or trigger run before the others, for outputs after them.", "quantifier": "all signals, functions, names, aliases, frequencies, triggers and classes of brokers", "why_tests_cant": "The answers depend on the names and aliases that all functions use and on the order of their signals; the tests configure a few.", "anchors": ["Source/Core/BareMetal/L5GAMs/DataSourceI.cpp: Initialise, SetConfiguredDatabase, GetSignalName, GetSignalIndex, GetFunctionIndex, GetSignalNumberOfSamples, GetInputBrokers, GetOutputBrokers"]}
{"id": "C96", "title": "The memory of a function's signals, and the order of its brokers", "statement": "The memory a function gets for its signals is zeroed and holds each signal, with all its samples, at its own place: no two signals share a byte and none goes outside. It is allocated once. The number of samples a function is told is that of its signal in the data source the signal is from. The brokers are run in the order in which their data sources first appear among the signals, none lost, and brokers of one data source in the order they were added. A failed initialisation is reported.", "quantifier": "all lists of signals, sizes, samples, data sources and brokers", "why_tests_cant": "The offsets depend on the sizes of all earlier signals and the order on all pairs of brokers; the tests have a few signals of a few bytes.", "anchors": ["Source/Core/BareMetal/L5GAMs/GAM.cpp: Initialise, SetConfiguredDatabase, AllocateInputSignalsMemory, AllocateOutputSignalsMemory, GetInputSignalMemory, GetSignalNumberOfSamples, SortBrokers"]}
{"id": "C97", "title": "Numbers go to and from big and little endian order", "statement": "After ToBigEndian (ToLittleEndian) the bytes of a variable are its value with the most (least) significant byte first; FromBigEndian (FromLittleEndian) gives the number that the bytes of a variable are in that order; one undoes the other. The MemCopy functions do the same to every element of an array, in place or between arrays that do not overlap, and change nothing else. Type tells the order of the processor.", "quantifier": "all values of all types, all arrays and sizes, on x86, arm and ppc", "why_tests_cant": "Every bit pattern and length counts, and each processor has its own file; the tests run on the processor they are built for.", "anchors": ["Source/Core/BareMetal/L1Portability/Endianity.h: Type", "Source/Core/BareMetal/L1Portability/Architecture/x86_gcc/EndianityA.h", "Source/Core/BareMetal/L1Portability/Architecture/arm_gcc/EndianityADefault.h", "Source/Core/BareMetal/L1Portability/Architecture/ppc_gcc/EndianityADefault.h"]}
{"id": "C98", "title": "Reading a configuration with one error flag", "statement": "The calls of a StructuredDataIHelper are made until one fails; from then on every call answers no and does nothing, until ResetErrors, so that asking HasErrors once at the end tells whether all succeeded. Read takes the default only for a value that is not there. ReadEnum gives the value of the first option that is equal to the text that is there (or to the default) and refuses every other text. ReadValidated answers yes exactly when the value is there and the expression is 1 for it.", "quantifier": "all sequences of calls, configurations, options, values, defaults and expressions", "why_tests_cant": "The promise is about every sequence of calls and place of the first failure.", "anchors": ["Source/Core/BareMetal/L4Configuration/StructuredDataIHelper.cpp"]}
{"id": "C99", "title": "A configuration printed in the JSON language and parsed again", "statement": "Printing a configuration with JsonPrinter (PrintStructuredDataI) writes one JSON object, leaves the configuration as it was, and parsing the text with JsonParser gives the same tree of names, texts, vectors and matrices (numbers come back as texts). With collapseArraysOfNodes the nodes a[0], a[1], ... are written as a list a of blocks and the parser gives the same nodes back. What cannot be printed is reported.", "quantifier": "every configuration, at any depth, built by any sequence of calls; both settings of collapseArraysOfNodes", "why_tests_cant": "the order of the nodes, of brackets in names, of separators and of nested lists can be combined in unboundedly many ways, and an error in the middle can be covered by what comes after it", "anchors": ["Source/Core/BareMetal/L3Streams/PrinterI.cpp: PrintStructuredDataI, PrinterIGetNodeArraySize, PrinterIGetNodeArrayName", "Source/Core/BareMetal/L3Streams/JsonPrinter.cpp", "Source/Core/BareMetal/L3Streams/IOBufferJsonPrint.cpp", "Source/Core/BareMetal/L3Streams/IOBuffer.cpp: PrintToStreamVector, PrintToStreamMatrix", "Source/Core/BareMetal/L4Configuration/JsonParser.cpp"]}
{"id": "C100", "title": "Reading a configuration in the XML language", "statement": "Parsing an XML configuration (elements with values, vectors or matrices, nested elements) into a configuration database accepts it exactly when its values can be carried out, and the database then answers every further call as the tree written in the text; elements whose names differ between opening and closing are refused; a configuration printed in XML can be read again.", "quantifier": "Every document of the XML language of configurations of any size, every history of the database before, every sequence of calls afterwards.", "why_tests_cant": "The grammar generates infinitely many documents and the parser is a table-driven automaton with a stack of bounded size; tests read a handful of texts.", "anchors": ["Source/Core/BareMetal/L4Configuration/XMLParser.cpp: XMLParser", "Source/Core/BareMetal/L4Configuration/ParserI.cpp: ParserI::Parse", "Source/Core/BareMetal/L3Streams/XMLPrinter.cpp: XMLPrinter", "Source/Core/BareMetal/L3Streams/IOBufferXMLPrint.cpp"]}
{"id": "C101", "title": "A configuration written on a stream while it is built", "statement": "Writing a tree with StreamStructuredData (CreateRelative, Write, MoveToAncestor for each node) answers yes to every call and leaves on the stream the text of that tree in the language of the printer: each element once, in order, the blocks nested, one separator between an element and the next; the JSON text can be read back and gives the same tree. After any calls that all answered yes the blocks that are open are those on the way to the current node. A block that has been closed is never written again.", "quantifier": "every tree of nodes and values, every printer, every sequence of calls with simple paths", "why_tests_cant": "the text depends on flags kept in each node and on everything written before; trees and call sequences are unbounded", "anchors": ["Source/Core/BareMetal/L3Streams/StreamStructuredData.h: Write, MoveToRoot, MoveToAncestor, MoveAbsolute, CreateAbsolute, CreateRelative", "Source/Core/BareMetal/L3Streams/StreamStructuredData.cpp"]}
{"id": "C102", "title": "What a logger consumer prints", "statement": "A consumer accepts exactly the formats of at most eleven known letters. Of each message it prints the fields that are asked for and no others, in one order whatever the order of the letters, each after a bar and its key. Two messages that are printed alike have the same content in all these fields, as long as no bar is in a field before the message. The name of a code is that of the errors it has.", "quantifier": "every format, every message and what is known about it, every clock", "why_tests_cant": "the formats and the messages are unbounded; tests print a few messages with a few formats", "anchors": ["Source/Core/Scheduler/L4LoggerService/LoggerConsumerI.cpp:LoggerConsumerI::PrintToStream", "Source/Core/Scheduler/L4LoggerService/LoggerConsumerI.cpp:LoggerConsumerI::LoadPrintPreferences", "Source/Core/BareMetal/L1Portability/Environment/Generic/ErrorManagement_Generic.cpp:ErrorCodeToStream", "Source/Core/BareMetal/L1Portability/Environment/Generic/ErrorManagement_Generic.cpp:ReportError"]}
{"id": "C103", "title": "Registration of plain loggers", "statement": "A plain logger is registered when it is initialised, if it has consumers and only these and there are fewer than four others, until it is purged. Every message that is reported is taken once by each consumer of each registered logger, in the order of the registrations, or, if there is none, by the routine that handled errors before. When the last logger is removed this routine is the one in use again.", "quantifier": "every history of initialisations, removals and reports, by one thread or by many in any interleaving", "why_tests_cant": "histories and interleavings are unbounded; tests register one or two loggers from one thread", "anchors": ["Source/Core/Scheduler/L4LoggerService/PlainLoggerService.cpp:PlainLoggerService::Initialise", "Source/Core/Scheduler/L4LoggerService/PlainLoggerService.cpp:PlainLoggerBinderSingleton::RegisterPlainLoggerService", "Source/Core/Scheduler/L4LoggerService/PlainLoggerService.cpp:PlainLoggerBinderSingleton::UnRegisterPlainLoggerService", "Source/Core/Scheduler/L4LoggerService/PlainLoggerService.cpp:PlainLoggerBinderSingleton::PropagateLog", "Source/Core/BareMetal/L1Portability/Environment/Generic/ErrorManagement_Generic.cpp:SetErrorProcessFunction"]}
{"id": "C104", "title": "Messages that call registered methods", "statement": "A message calls the first method of the object that is registered with its function, once, with the values of its parameters in order; if the method answers no error exactly the parameters declared T & are written back, the message becomes a reply if one is expected, and it is sent back if the reply is indirect. A parameter that is missing, an unknown function, a reply or an error of the method leave the parameters as they are, and no reply is made.", "quantifier": "every class, every method of up to four parameters of each kind, every object and every message", "why_tests_cant": "methods, parameters and messages are unbounded; tests call a few methods of a few test classes", "anchors": ["Source/Core/BareMetal/L2Objects/ClassMethodCallerT.h: Call", "Source/Core/BareMetal/L2Objects/ClassMethodInterfaceMapper.h: Prepare", "Source/Core/BareMetal/L2Objects/Object.cpp: CallRegisteredMethod", "Source/Core/BareMetal/L2Objects/ClassRegistryItem.cpp: FindMethod", "Source/Core/BareMetal/L4Messages/RegisteredMethodsMessageFilter.cpp: ConsumeMessage"]}
{"id": "C105", "title": "Hash functions", "statement": "The 32 and 64 bit hashes are djb2 and FNV-1a with the published constants, of exactly the bytes that are given by their number, or by a text ended by a zero; both forms agree. Data that differ in one byte have different hashes. No bytes have the hash of the empty text.", "quantifier": "all memory contents and all sizes", "why_tests_cant": "the inputs are unbounded; tests hash a few texts", "anchors": ["Source/Core/BareMetal/L0Types/DjbHashFunction.cpp: Compute, Compute64", "Source/Core/BareMetal/L0Types/Fnv1aHashFunction.cpp: Compute, Compute64"]}
{"id": "C106", "title": "Reconfigurations", "statement": "A configuration that can be parsed, has the right hash and can be built replaces the one that runs; the registry has then its objects and those that are kept, with their contents, and it is the last valid configuration. If it fails, the last valid configuration stays what it is and, if this is asked for, is built again. A text that is refused changes nothing. The messages before, after and of a failure are sent accordingly. A configuration sent over the network is received whole.", "quantifier": "every configuration, every history of reconfigurations, every behaviour of the objects and of the messages, every way the network cuts a text", "why_tests_cant": "failures can occur at every step and histories are unbounded; tests go through a few of them", "anchors": ["Source/Core/BareMetal/L6App/Loader.cpp: Configure, Reconfigure, ReconfigureImpl, ReloadLastValidConfiguration", "Source/Core/BareMetal/L6App/RealTimeLoader.cpp: PostReconfigure, Stop", "Source/Core/FileSystem/L6App/ConfigurationLoaderTCP.cpp: Execute"]}
{"id": "C107", "title": "Expressions in configurations", "statement": "Every expression (type|\"expression\") of a configuration is replaced by its value as a number of that type, computed from the leaves of the configuration that it names by their path from the root, where expressions written earlier have already been replaced; all other leaves stay. If a variable is not in the configuration or is a text the configuration is refused.", "quantifier": "every configuration, every list of expressions and every way of evaluating them", "why_tests_cant": "expressions and configurations are unbounded and expressions use one another; tests parse a few of them", "anchors": ["Source/Core/BareMetal/L4Configuration/ConfigurationParserI.cpp: End, ExpandExpression, BrowseExpressionVariables, GetExprCast"]}
{"id": "C108", "title": "Printed floating point numbers are the number rounded to the digits asked for", "statement": "Printing a floating point number with %f, %F, %e, %g (engineering and compact notations included), a size, a precision and a padding never writes more characters than the size, writes exactly the size if padded, writes 0, NaN, +Inf and -Inf by name, and otherwise writes the number rounded half up to the digits asked for (decimals for %f, significant digits otherwise), or to as many as fit. It writes ? only if the rounded integer part has more digits than there is room for and 0 only for numbers below one.", "quantifier": "all numbers, notations, sizes, precisions, paddings", "why_tests_cant": "The number of digits that fit depends on the exponent, on the carry of the rounding, on the sign and on the notation; the tests print some tens of numbers.", "anchors": ["Source/Core/BareMetal/L3Streams/IOBufferFloatPrint.cpp: FloatToStream, FloatToStreamPrivate, NormalizeFloatNumberPrivate, NumberOfDigitsNotation, FloatToFixedPrivate, RoundUpNumber"]}
{"id": "C109", "title": "A mutex semaphore has one holder at a time", "statement": "A MutexSem shared by any number of threads and copied objects is locked by a thread only when nobody has it (or, created recursive, when the same thread has it), a free semaphore is given to the next thread that tries, only the holder unlocks it, a closed one refuses at once, a timed Lock waits until the time of the call plus the timeout, and the low level semaphore lives until the last object that shares it is destroyed.", "quantifier": "all schedules of any number of threads, all sequences of Create, Close, Lock, UnLock, copies and destructions, all timeouts", "why_tests_cant": "Exclusion depends on the interleaving of Create, Close and the checks of the handle with the calls of the other threads; the tests use a few threads and one schedule.", "anchors": ["Source/Core/Scheduler/L1Portability/Environment/Linux/MutexSem.cpp: MutexSem, Create, Close, Lock, UnLock, ~MutexSem"]}
{"id": "C110", "title": "A polling event semaphore lets threads pass only while it is raised", "statement": "FastWait returns NoError only if the barrier is up at that moment and Timeout only after its timeout; while the barrier is up every waiting thread passes with its next poll; a wait with a timeout ends within two of its own steps once its time is over; a wait without a timeout never times out.", "quantifier": "all schedules of any number of threads calling FastWait, FastResetWait, FastPost, Reset and Create, all clocks and timeouts", "why_tests_cant": "The waiting threads poll without any lock, so that the answers depend on where each of them is when the flag or the clock changes.", "anchors": ["Source/Core/BareMetal/L1Portability/FastPollingEventSem.cpp: FastWait, FastPost, Reset, FastResetWait, Create"]}
{"id": "C111", "title": "A stream over memory of the caller is a file in that memory", "statement": "StreamMemoryReference over memory that can be written behaves as a file that begins empty and cannot grow beyond that memory: reads, writes, seeks and sizes give what a file gives, the memory holds exactly what was written, and no other memory is used. Over constant memory the content is the memory, writes are refused and the memory never changes.", "quantifier": "every memory below 2^32 bytes, every sequence of calls and their arguments", "why_tests_cant": "Sequences of calls, sizes and positions have no limit; an access outside the memory shows only by chance.", "anchors": ["Source/Core/BareMetal/L3Streams/StreamMemoryReference.cpp: StreamMemoryReference::Read, Write, Size, SetSize, Seek, RelativeSeek, Position", "Source/Core/BareMetal/L3Streams/IOBuffer.cpp: IOBuffer::SetBufferReferencedMemory, SetBufferReadOnlyReferencedMemory, SetUsedSize, Seek, RelativeSeek"]}
{"id": "C112", "title": "A configuration protected by a hash is accepted only with the hash of its text", "statement": "With a ConfigurationLoaderHashCRC, Reconfigure with a hash goes on if and only if the hash is the remainder by the key of the last seed given by GetSeed followed by the text. A text that was changed in up to four consecutive bytes, or the hash for another seed, is refused. Only those who know the key can have a configuration accepted, and a hash cannot be used again.", "quantifier": "every key, seed, text and sequence of calls of GetSeed and Reconfigure", "why_tests_cant": "Texts, keys and seeds have no limit; that no changed text keeps its hash and that nobody can forge one cannot be tried out.", "anchors": ["Source/Core/BareMetal/L6App/ConfigurationLoaderHashCRC.cpp: ConfigurationLoaderHashCRC::GetSeed, Initialise, ComputeHash", "Source/Core/BareMetal/L6App/Loader.cpp: Loader::Reconfigure, GetSeed", "Source/Core/BareMetal/L0Types/CRC.h: CRC::Compute"]}
{"id": "C113", "title": "Types registered from data have a type for each structure, declared after the types of its members", "statement": "Registering the types of structured data makes one type for the data and one for each structure inside, with every value and structure as a member, in order, with its type and number of elements (consecutive nodes name[0], name[1], ... are one array), and declares each type after the types of its members.", "quantifier": "all data: any nesting, names, types and arrays", "why_tests_cant": "Nesting, the order of the members and the sizes of arrays have no limit; the tests have few shapes of data, always with the structures as the last members.", "anchors": ["Source/Core/BareMetal/L4Configuration/IntrospectionStructure.cpp: IntrospectionStructure::RegisterStructuredDataI"]}
{"id": "C114", "title": "Each function belongs to the threads that execute it", "statement": "Configuring a real time application records for every GAM and every state the thread that lists it or one of the containers it is in. It succeeds if and only if all listed functions exist, no thread has more than one synchronising signal and, unless CheckSameGamInMoreThreads is 0, no GAM is listed in two threads of a state; an application that is not right is refused.", "quantifier": "all trees of functions, all states and threads", "why_tests_cant": "Trees of functions and lists of states and threads have no limit and a function can be listed directly or through any of the containers it is in.", "anchors": ["Source/Core/BareMetal/L5GAMs/RealTimeApplicationConfigurationBuilder.cpp: ResolveStates, ConfigureThreads, GetNumberOfSyncSignals", "Source/Core/BareMetal/L5GAMs/RealTimeThread.cpp: ConfigureArchitecture, GetGAMs"]}
{"id": "C115", "title": "The timing data source has one signal of 32 bits for each time", "statement": "When a real time application is configured, its timing data source gets a signal for the cycle time of each thread of each state, for the read, execution and write time of each function and for the current state, each a scalar of type uint32 found by its name; all other signals stay as they are, no name is used twice, and a signal with one of these names that was declared as something else makes the configuration fail.", "quantifier": "all lists of threads, functions and declared signals", "why_tests_cant": "The names come from the configuration, any of them may have been declared, with any of the properties given or left out.", "anchors": ["Source/Core/BareMetal/L5GAMs/RealTimeApplicationConfigurationBuilder.cpp: AddThreadCycleTime, AddTimingSignals, WriteTimeSignalInfo, CheckTimeSignalInfo", "Source/Core/BareMetal/L5GAMs/DataSourceI.cpp: SetConfiguredDatabase, GetSignalIndex"]}
{"id": "C116", "title": "The flat signals of an application are the signals of its tree", "statement": "When an application is configured, the signals that each function and data source declares as a tree of namespaces are turned into a flat list: every signal of the tree appears once, in order, with consecutive numbers, called by its path joined with points, with the properties and the data source written for it (or the default data source); a signal of a structured type is replaced by the basic members of each of its elements, with their own names, types, defaults and aliases; no two flat signals have the same name; and a configuration is refused if a signal has no data source, an unknown type, or a frequency or a trigger that is not attached to a member.", "quantifier": "all trees of namespaces and signals, all structured types of any depth with arrays of up to three dimensions, all properties and data sources", "why_tests_cant": "tests use a handful of configurations; the names and positions of the signals must be right for every depth of nesting and every array of structures", "anchors": ["Source/Core/BareMetal/L5GAMs/RealTimeApplicationConfigurationBuilder.cpp: FlattenSignal, FlattenSignalsDatabase, CacheSignalIntrospections, SignalIntrospectionToStructuredData"]}
{"id": "C117", "title": "The brokers of a function follow the order of its signals", "statement": "When an application is configured, every function gets exactly the brokers that its data sources make for it, and it executes them in the order in which its signals first name those data sources: all brokers of the data source of the first signal, then those of the next data source, and so on, brokers of the same data source in the order in which they were made; no broker is lost or duplicated; and this order does not depend on where the function is in the tree.", "quantifier": "all functions at any depth, all lists of signals, all data sources and all brokers they make", "why_tests_cant": "tests check one function with two data sources; the order of execution must be right for every number of brokers and signals", "anchors": ["Source/Core/BareMetal/L5GAMs/GAM.cpp: SortBrokers, AddInputBrokers, AddOutputBrokers", "Source/Core/BareMetal/L5GAMs/RealTimeApplication.cpp: AddBrokersToFunctions", "Source/Core/BareMetal/L5GAMs/DataSourceI.cpp: AddBrokers"]}
{"id": "C118", "title": "A value kept by a configuration database is a copy of its own, and it is freed", "statement": "When a value (number, string, vector, matrix or tensor, static or on the heap) is kept, the object that keeps it has the same contents and the same dimensions; nothing else in memory changes; whatever the program later does with the original, the kept value stays the same. An object that is given several values one after the other has the last, and when it is dropped every block of memory that was ever taken for it has been freed exactly once.", "quantifier": "all contents of memory, all values of the supported kinds with any dimensions and sizes, all later changes of the rest of the memory, all sequences of values given to one object", "why_tests_cant": "a test compares the contents of some values; that no block is shared with the original, leaked or freed twice must hold for every shape, and depends on arithmetic of sizes and on the order of allocations", "anchors": ["Source/Core/BareMetal/L4Configuration/AnyObject.cpp:AnyObject::Serialise", "Source/Core/BareMetal/L4Configuration/AnyObject.cpp:AnyObject::CleanUp", "Source/Core/BareMetal/L4Configuration/AnyObject.cpp:SerializeHeapMatrix", "Source/Core/BareMetal/L4Configuration/ConfigurationDatabase.cpp:ConfigurationDatabase::Write"]}
{"id": "C119", "title": "Safe shifts are exact for every amount", "statement": "Shifting an integer with the safe shift functions gives, for every number and every amount, including amounts not smaller than the size of the type, what the arithmetic says: a logical right shift divides the number read without sign by the power of two; a left shift multiplies it and keeps the bits that fit; a mathematic right shift divides the number, with its sign, rounding down; the same for integers made of two halves.", "quantifier": "every integer width, every number, every amount", "why_tests_cant": "the amount at and beyond the size of the type, and the sign, interact for every number; tests sample a few of them.", "anchors": ["Source/Core/BareMetal/L0Types/Shift.h:LogicalRightSafeShift", "Source/Core/BareMetal/L0Types/Shift.h:LogicalLeftSafeShift", "Source/Core/BareMetal/L0Types/Shift.h:MathematicRightSafeShift", "Source/Core/BareMetal/L0Types/Shift.h:MathematicLeftSafeShift", "Source/Core/BareMetal/L0Types/Shift.h:LogicalRightShift"]}
{"id": "C120", "title": "Data sources are told of exactly the functions and signals that use them", "statement": "When an application is configured, every data source is told of exactly the functions that have signals for it, once each and in their order, and for each direction of exactly the signals for it, in their order, with the name the function and the data source give to the signal, the bytes used, the samples, its place in the memory of the function, the total size and the broker the data source chose; the configuration is accepted exactly if all data sources are known and have a broker for every signal; choosing the brokers later gives the same outcome.", "quantifier": "every list of functions with any number of signals in any order of data sources, every choice of brokers", "why_tests_cant": "the signals of a function are regrouped through two caches shared by all the functions; that none is lost, repeated or given to the wrong data source depends on the whole list of functions.", "anchors": ["Source/Core/BareMetal/L5GAMs/RealTimeApplicationConfigurationBuilder.cpp:ResolveFunctionsMemory", "Source/Core/BareMetal/L5GAMs/RealTimeApplicationConfigurationBuilder.cpp:AssignFunctionsMemoryToDataSource", "Source/Core/BareMetal/L5GAMs/RealTimeApplicationConfigurationBuilder.cpp:AssignBrokersToFunctions", "Source/Core/BareMetal/L5GAMs/RealTimeApplicationConfigurationBuilder.cpp:AssignBrokersToSignals"]}
{"id": "C121", "title": "What is added to a memory area stays where it was added", "statement": "Every addition to a memory area is placed after all the previous ones, at the offset that is answered; from then until the area is freed the address of that offset leads to the bytes that were added, however often the area grows and moves; a refused addition changes nothing; offsets beyond the size have no address; no block of memory is lost.", "quantifier": "every history of initialisations, additions (with or without a source) and releases, and every behaviour of the heap", "why_tests_cant": "growing moves the block; that earlier bytes survive and that offsets do not overlap must hold after any history, and for any failure of the heap.", "anchors": ["Source/Core/BareMetal/L1Portability/MemoryArea.cpp:Add", "Source/Core/BareMetal/L1Portability/MemoryArea.cpp:InitMemory", "Source/Core/BareMetal/L1Portability/MemoryArea.cpp:Free", "Source/Core/BareMetal/L1Portability/MemoryArea.cpp:GetPointer"]}
{"id": "C122", "title": "Elements of a value of any type are at their addresses", "statement": "Indexing a value that describes a vector gives, for every position below the number of elements, the element at its address, and nothing for the others; indexing twice a value that describes a matrix gives the element of that row and column for every row and column of the matrix, and nothing outside it; the size of a value is the product of its dimensions and of the size of an element.", "quantifier": "every type of element, every number of rows and columns, every position, matrices in one block or with a table of rows", "why_tests_cant": "the mistakes are in the relation between rows, columns and positions; square examples do not show them.", "anchors": ["Source/Core/BareMetal/L2Objects/AnyType.cpp:operator[]", "Source/Core/BareMetal/L2Objects/AnyType.h:GetByteSize", "Source/Core/BareMetal/L2Objects/AnyType.h:GetDataSize"]}
{"id": "C123", "title": "A console shows the whole text, in lines that fit", "statement": "When a text is written to a console, in one call or in many, what is shown is the text with line breaks added: nothing is lost, repeated or reordered, the size answered is the one of the text, and the pieces in which it was written make no difference. With a scene size set, a line break is added after every line that has as many characters as there are columns, and nowhere else, so that no line is longer.", "quantifier": "every text, every division of it into calls, every number of columns and every column where the last call ended", "why_tests_cant": "Where the breaks fall depends on the column left by all the earlier calls and on how the text is cut into calls", "anchors": ["Source/Core/BareMetal/L1Portability/Environment/Linux/BasicConsole.cpp: BasicConsole::OSWrite, SetSceneSize"]}
{"id": "C124", "title": "The body of a POST request is the bytes announced", "statement": "When the server reads a POST request that has a type and a length of content, the body it keeps is exactly the bytes announced by the length, in their order, however the network cuts them; what the client sends after them is left for the next request; a request whose bytes do not all come is not accepted.", "quantifier": "every length, every body, every division of the bytes into reads and every size of the read buffer", "why_tests_cant": "The pieces in which the network delivers the bytes, and what follows them, are chosen by the network and the client", "anchors": ["Source/Core/FileSystem/L4HttpService/HttpProtocol.cpp: HttpProtocol::ReadHeader"]}
{"id": "C125", "title": "Copying a stream to another moves every byte once", "statement": "Copy of a stream to another writes to the destination the bytes that it takes from the source, each once and in order, whatever each read delivers; what is not taken stays in the source; when it answers true the source is empty and all its bytes are in the destination.", "quantifier": "every content, every sequence of answers and sizes of the reads and of the writes", "why_tests_cant": "The answers of the two devices can be interleaved in any way, and bytes of a local buffer that were never set look like data", "anchors": ["Source/Core/BareMetal/L3Streams/BufferedStreamI.cpp: BufferedStreamI::Copy", "Source/Core/BareMetal/L3Streams/DoubleBufferedStream.cpp: Read", "Source/Core/BareMetal/L3Streams/SingleBufferedStream.cpp: Read"]}
{"id": "C126", "title": "A structure converted to another has its values", "statement": "Converting a structure to another one succeeds exactly when the two have members in the same number and of kinds that can be converted, at every depth, and every converted value passes the checks of its member; then each member of the destination holds the value of the member of the source at the same place, or the nearest one that its type has; no byte outside of the members of the destination changes; and a conversion that is refused leaves the destination as it was.", "quantifier": "every pair of structures of any depth and layout, and every content of the memory", "why_tests_cant": "The depth, the layouts and the values are not bounded, and a mistake in an offset shows only as a change of a neighbour", "anchors": ["Source/Core/BareMetal/L4Configuration/TypeConversion.cpp: ObjectToObject, ScalarBasicTypeConvert, TypeConvert"]}
{"id": "C127", "title": "Every connection of the HTTP service is closed once and freed once", "statement": "In every history of a thread of the HTTP service, the stream of each client is used only while its connection is open, and is never closed or freed twice, freed while open or touched after it was freed; and each connection that was accepted, and is not being served, was closed and freed, also when the service is stopped.", "quantifier": "every sequence of connections, of requests, of failures of the network and of stop commands", "why_tests_cant": "A leak or a use after free needs one particular order of failures and commands among all of them", "anchors": ["Source/Core/FileSystem/L4HttpService/HttpService.cpp: HttpService::ServerCycle, HttpService::ClientService", "Source/Core/Scheduler/L3Services/MultiClientEmbeddedThread.cpp: MultiClientEmbeddedThread::ThreadLoop"]}
{"id": "C128", "title": "Descriptors of types and their names", "statement": "A type descriptor has exactly the kind, number of bits and constness, or class identifier, it was made with, whatever was in its memory before; two descriptors are equal exactly when they describe the same type, constness aside, and a basic type never equals a class; a type is numeric exactly when it is an integer or float of at least one bit; the name of each named type leads to its descriptor and back, and any other name leads to the invalid type.", "quantifier": "every kind below 16, number of bits, class identifier, previous content of the memory and name", "why_tests_cant": "a test compares a few predefined descriptors; it cannot compare all 65536 contents, all pairs of classes and all names", "anchors": ["Source/Core/BareMetal/L1Portability/TypeDescriptor.h: TypeDescriptor", "Source/Core/BareMetal/L1Portability/TypeDescriptor.cpp: operator==, IsNumericType, GetTypeDescriptorFromTypeName, GetTypeNameFromTypeDescriptor"]}
{"id": "C129", "title": "Waiting for handles watches exactly the handles that were added", "statement": "After any history of additions, removals, clears and waits, the descriptors watched in each mode are those added and not removed or cleared since; a handle is added exactly when it is valid and not yet watched, is removed exactly when it is watched and is set exactly when it is watched in some mode; each wait asks the operating system exactly for what is watched, with a limit that leaves out none, and for the requested time, and returns at once when nothing is watched.", "quantifier": "every history of additions, removals, clears, queries and waits, every descriptor, timeout and answer of the operating system", "why_tests_cant": "the highest descriptor is kept incrementally and lowered by a loop, so an error in it shows only for some histories", "anchors": ["Source/Core/FileSystem/L1Portability/Environment/Linux/Select.cpp: Select", "Source/Core/FileSystem/L1Portability/Select.h: Select"]}
{"id": "C130", "title": "A TCP socket moves every byte once, within its timeout, and keeps its mode", "statement": "In every history of reads, writes and peeks, with or without timeouts, the bytes a program gets followed by those it has not read are the bytes that arrived, and the bytes sent are exactly those it was told were sent; an operation answers true exactly when it moved bytes; an operation, a connection or a wait for a connection with a finite timeout waits at most for it, and leaves the socket in the blocking mode it had and without a limit of time.", "quantifier": "every history, size, timeout and sequence of answers of the operating system", "why_tests_cant": "the answers of the operating system can fail at any point, and a wrong limit shows only when the peer is silent", "anchors": ["Source/Core/FileSystem/L1Portability/Environment/Linux/BasicTCPSocket.cpp: Read, Write, Peek, Connect, WaitConnection", "Source/Core/FileSystem/L1Portability/Environment/Linux/BasicSocket.cpp: SetBlocking, Close"]}
{"id": "C131", "title": "The scan of a directory lists each matching file once and in order", "statement": "A scan of a directory that succeeds gives the paths of exactly the files that match the mask, each once and in alphabetical order, and their total size without the directory itself and its parent; one that fails leaves the scanner empty; what the scanner held before does not matter.", "quantifier": "every content of the file system, path and mask, every earlier content of the scanner, and every schedule of the threads that scan", "why_tests_cant": "the lists, names and sizes are not bounded, and two threads share the mask", "anchors": ["Source/Core/FileSystem/L1Portability/Environment/Linux/DirectoryScanner.cpp: DirectoryScanner::Scan", "Source/Core/FileSystem/L1Portability/Environment/Linux/Directory.cpp: Directory::SetByName, Directory::GetSize"]}
{"id": "C132", "title": "A change of state tells each object of the state once, with the right names", "statement": "When a change of state is prepared, the stateful objects of the new state, each once however many functions share it, and then the stateful data sources are told, in order, up to the first that refuses; the change succeeds exactly when the state exists and none refuses; and each is told the state that was started last as the current one and the state asked for as the next one, in every history of preparations and starts.", "quantifier": "every set of states and objects, every history of preparations and starts and every pattern of refusals", "why_tests_cant": "the two names alternate between two places, so an error in them needs a particular history", "anchors": ["Source/Core/BareMetal/L5GAMs/RealTimeApplication.cpp: PrepareNextState, StartNextStateExecution", "Source/Core/BareMetal/L5GAMs/RealTimeState.cpp: AddStatefuls, PrepareNextState"]}
{"id": "C133", "title": "Datagrams of a UDP socket", "statement": "The reads of a UDP socket that succeed give the datagrams that arrived, one each, whole and in order, and the socket tells the sender of each; a peek takes nothing. Each write sends one datagram, whole, to the host of the last successful connection or to the one that was set, and is answered with true when it was sent. A transfer with a timeout waits no longer than it.", "quantifier": "every history of peeks, reads, writes, connections and changes of destination, every datagram, size and timeout, every answer of the operating system", "why_tests_cant": "The outcome depends on the history of the destination, on the lengths of the datagrams against the sizes asked for and on the answers of the operating system.", "anchors": ["Source/Core/FileSystem/L1Portability/Environment/Linux/BasicUDPSocket.cpp: Peek, Read, Write, Connect", "Source/Core/FileSystem/L1Portability/Environment/Linux/InternetHost.cpp: SetPort, SetAddress, SetAddressByHostName"]}
{"id": "C134", "title": "The name and the addresses of the local host", "statement": "Asking for the name or the address of the local host always returns. When the operating system knows them, the answers are its name, its address and the number of this address, the same at every question, and different addresses have different numbers. Asking for the addresses of an interface reads only its name and leaves no descriptor open.", "quantifier": "every history of questions, every answer of the operating system at each, every address, every name of an interface", "why_tests_cant": "The host is looked up once for the whole program: a test cannot make the operating system fail at the first question and then ask again.", "anchors": ["Source/Core/FileSystem/L1Portability/Environment/Linux/InternetHost.cpp: LocalHostInfo, GetLocalHostName, GetLocalAddress, GetLocalAddressAsNumber, GetMACAddress, ConvertInterfaceNameToInterfaceAddressNumber"]}
{"id": "C135", "title": "A serial port", "statement": "A speed is accepted exactly when the port is closed and it is one of the speeds of serial lines, and is refused without effect otherwise. Waiting on an open port tells whether this port is ready. A read gives the bytes that arrived, in order, and answers true exactly when it gives all those asked for, within the timeout; a write that answers true sent everything. A port that cannot be opened is refused.", "quantifier": "every speed, every history of openings and closings, every number of bytes asked for, every way in which they arrive, every answer of the operating system", "why_tests_cant": "The outcome depends on the descriptors that the operating system gives at each opening and on how the bytes arrive.", "anchors": ["Source/Core/FileSystem/L1Portability/Environment/Linux/BasicUART.cpp: SetSpeed, Open, Close, Read, Write, WaitRead, WaitWrite"]}
{"id": "C136", "title": "The exchanges of an HTTP client", "statement": "Every request of an HTTP client goes to the host, the port and the resource that were given last, whatever happened to the connection before. It carries the authorisation that was given last. An exchange always ends, and it answers true exactly when it has given the body of a reply of the server that is not a refusal. A parameter of a challenge is found by its name, whatever the others are.", "quantifier": "every history of setters, configurations and exchanges, every behaviour of the connection and of the server, every text of a challenge", "why_tests_cant": "tests use one server that accepts the second request and a client that keeps its settings; the property is about servers that refuse, close or disappear at any point and about clients that are set anew", "anchors": ["Source/Core/FileSystem/L4HttpService/HttpClient.cpp: HttpClient::HttpExchange, AutenticationProcedure, Connect, Initialise, SetServerAddress, SetAuthorisation, SearchKey", "Source/Core/FileSystem/L4HttpService/HttpProtocol.cpp: WriteHeader"]}
{"id": "C137", "title": "The settings of a service with one thread", "statement": "After any history a service with one thread tells the settings (priority class and level, processors, stack) that were given last while its thread was not running, and the timeout that was given last; a thread is begun with exactly these settings, and only when none is running. A configuration is accepted exactly when it has a timeout and no unknown priority class; then what it says is in force, and otherwise it changes nothing.", "quantifier": "every history of setters, configurations, starts, stops and ends of the thread, every configuration, every platform", "why_tests_cant": "tests set each value once before a start; the property is about every order of settings, starts and ends", "anchors": ["Source/Core/Scheduler/L3Services/SingleThreadService.cpp: Start, Stop, SetTimeout, SetPriorityClass, SetPriorityLevel, SetStackSize, SetCPUMask", "Source/Core/Scheduler/L3Services/EmbeddedServiceI.cpp: Initialise", "Source/Core/Scheduler/L3Services/EmbeddedThreadI.cpp: SetTimeout, Start"]}
{"id": "C138", "title": "The destruction of the global objects", "statement": "At the end of the program every global object that was registered is destroyed exactly once, in ascending order of the destruction order it was registered with, and objects of the same order are destroyed in the order in which they were registered.", "quantifier": "every number of registered objects, every assignment of destruction orders, every size of the table", "why_tests_cant": "tests register a few objects and cannot observe the end of the program; the property is about every sequence of registrations", "anchors": ["Source/Core/BareMetal/L1Portability/GlobalObjectsDatabase.cpp: GlobalObjectsDatabase::Add, Peek, ~GlobalObjectsDatabase"]}
{"id": "C139", "title": "An error is the set of its kinds", "statement": "After any history of flags that are set or cleared, errors that are added, cleared or assigned, the value of an error holds exactly the kinds of errors that were put in and not taken out since; no kind affects another. It tells that there is no error exactly when the set is empty, that it contains some kinds exactly when all of them are in the set, and that it is equal to another value exactly when the sets are the same. A boolean that is converted to an error and back is the same.", "quantifier": "every history of operations, every value of 32 bits, every flag", "why_tests_cant": "tests set each flag of a fresh value; the property is about every combination of the kinds and every history", "anchors": ["Source/Core/BareMetal/L0Types/ErrorType.h: ErrorType::SetError, ClearError, Contains, ErrorsCleared, operator=, operator bool", "Source/Core/BareMetal/L0Types/BitBoolean.h: BitBoolean::operator="]}
{"id": "C140", "title": "The memory of vectors", "statement": "In any history of vectors that are made, copied, assigned, resized and destroyed, no memory is freed twice, used after it was freed or lost: what is allocated belongs to exactly one vector, and nothing is left when all are destroyed. A copy has the elements of the original and is independent of it.", "quantifier": "every history of operations on any number of vectors, every size and content, every array of the program", "why_tests_cant": "tests make a few vectors; the property is about every order of copies, assignments and destructions of vectors that own their memory or not", "anchors": ["Source/Core/BareMetal/L0Types/Vector.h: Vector, operator=, SetSize, FreeMemory, operator[], GetDataPointer"]}
{"id": "C141", "title": "Questions on the signals of a GAM", "statement": "The index that a GAM gives for the name of a signal is that of the first signal with this name, and one is given whenever there is such a signal; a name that is refused changes nothing. A range or a byte offset of a signal is the one that is configured, and one that is not there is refused and changes nothing. The frequency of a signal is answered with success exactly when there is one, and then it is the one that is configured.", "quantifier": "every list of signals, every name, index and row, every content of the memory node", "why_tests_cant": "tests ask about the signals of one configuration; the property is about every configuration, name and index, with the ones that are not there", "anchors": ["Source/Core/BareMetal/L5GAMs/GAM.cpp: GAM::GetSignalIndex, GetSignalName, GetSignalRangesInfo, GetSignalByteOffsetInfo, GetSignalFrequency, MoveToSignalIndex"]}
