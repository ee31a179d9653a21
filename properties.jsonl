{"id": "C01", "title": "Encoded integers round-trip (signed)", "statement": "Writing any integer in the signed 32-bit range with write_value and reading it back with read_value yields the same integer, consumes exactly the bytes written and leaves whatever follows untouched; any other integer that needs the long form is rejected by the writer.", "quantifier": "every integer, every following byte string", "why_tests_cant": "4 billion values times every continuation of the stream; boundaries at ±107/108 and ±1131/1132 and at 2^31", "anchors": ["src/vfbLib/compilers/value.py:write_value", "src/vfbLib/parsers/value.py:read_value"]}
{"id": "C02", "title": "Encoded integers round-trip (unsigned)", "statement": "Writing any integer in [-1131, 2^32) with signed=False and reading it with signed=False yields the same integer. Reading an unsigned-written integer as signed (as several entries do) yields the same integer exactly when it is below 2^31 and otherwise the integer minus 2^32.", "quantifier": "every integer, every following byte string", "why_tests_cant": "unbounded integer domain and a silent wrap-around region", "anchors": ["src/vfbLib/compilers/value.py:write_value", "src/vfbLib/parsers/value.py:read_value"]}
{"id": "C03", "title": "Encoded integers use the shortest encoding", "statement": "write_value emits an encoding of minimum length among all byte strings that read_value completely decodes to that integer, and the long form is always five bytes.", "quantifier": "every integer, every competing byte string", "why_tests_cant": "minimality quantifies over all alternative encodings", "anchors": ["src/vfbLib/compilers/value.py:write_value", "src/vfbLib/compilers/value.py:write_value_long"]}
{"id": "C04", "title": "Encoded integers are self-delimiting", "statement": "A concatenation of encoded integers decodes to exactly the original sequence, so two different sequences never have the same bytes; no encoding is a proper prefix of another one.", "quantifier": "every finite sequence of integers", "why_tests_cant": "sequences of unbounded length", "anchors": ["src/vfbLib/compilers/value.py:write_value", "src/vfbLib/parsers/value.py:read_value"]}
{"id": "C05", "title": "Reading an encoded integer: complete error behaviour", "statement": "On any stream read_value raises EOFError exactly when the stream is empty or starts with byte 0, ValueError exactly when it starts with a byte in 1..0x1f, otherwise returns an integer in the range of its form; a truncated multi-byte form is not detected but decoded from the bytes that are there.", "quantifier": "every byte stream", "why_tests_cant": "all byte streams including truncated ones", "anchors": ["src/vfbLib/parsers/value.py:read_value"]}
{"id": "C06", "title": "Fixed-width integers round-trip", "statement": "write_uint8/16/32 and write_int8/16/32 succeed exactly on their value range, emit exactly 1/2/4 little-endian bytes, and the matching reader returns the value and leaves the rest of the stream untouched.", "quantifier": "every integer, every following byte string", "why_tests_cant": "whole ranges including both ends and every out-of-range integer", "anchors": ["src/vfbLib/compilers/base.py:StreamWriter", "src/vfbLib/parsers/base.py:StreamReader"]}
{"id": "C07", "title": "Length-prefixed text round-trips", "statement": "A string made of characters of the single-byte text encoding is written by write_str_with_len and read back unchanged by read_str_with_len with the stream positioned directly behind it; a string with any other character is rejected and nothing is written; padding with write_str never truncates.", "quantifier": "every string, every following byte string", "why_tests_cant": "all strings of every length, incl. lengths that change the prefix size", "anchors": ["src/vfbLib/compilers/base.py:StreamWriter.write_str_with_len", "src/vfbLib/parsers/base.py:StreamReader.read_str_with_len"]}
{"id": "C08", "title": "Entry framing round-trips", "statement": "For every list of (id, payload) entries that ends with the end-of-data entry, the bytes produced by the writer are read back as exactly that list of ids and payloads, whether payloads need the 16-bit or the 32-bit size field, and reading stops directly after the end entry.", "quantifier": "every list of entries, every payload length below 2^32, every trailing bytes", "why_tests_cant": "any number of entries, payload lengths on both sides of 65535", "anchors": ["src/vfbLib/vfb/entry.py:VfbEntry.header", "src/vfbLib/vfb/entry.py:VfbEntry.read", "src/vfbLib/vfb/vfb.py:Vfb.read_stream", "src/vfbLib/vfb/vfb.py:Vfb.write_bytes"]}
{"id": "C09", "title": "File header round-trips", "statement": "Compiling an accepted file header and parsing the result gives the same header and positions the reader at the first entry; parsing rejects every stream whose signature or versions differ from the supported ones.", "quantifier": "every header dictionary, every byte stream", "why_tests_cant": "all field values and all byte streams", "anchors": ["src/vfbLib/parsers/header.py:VfbHeaderParser", "src/vfbLib/compilers/header.py:VfbHeaderCompiler", "src/vfbLib/vfb/header.py:VfbHeader"]}
{"id": "C10", "title": "Reading and writing an untouched file is lossless", "statement": "Whatever byte string is accepted as a file, writing the font that was read without decompiling it succeeds, and reading the output gives exactly the same font: the same header, settings, ids, payloads, in the same order – so that writing it once more gives the same bytes. If the file is in the form in which this library writes files and the three entries that are decompiled while reading are in the form in which they are compiled, the very first output is identical to the file.", "quantifier": "every byte string that is accepted as a file (of less than 1 GB, or of any size if the TrueType stems take less than 4 GB when they are written), also one with other header lengths, long entry headers or bytes after the end entry", "why_tests_cant": "all files, all entry lists, all payloads", "anchors": ["src/vfbLib/vfb/vfb.py:Vfb.read_stream", "src/vfbLib/vfb/vfb.py:Vfb.write_bytes", "src/vfbLib/vfb/entry.py:VfbEntry.header"]}
{"id": "C11", "title": "Reading ends within as many entries as the file has bytes, or never", "statement": "For every byte string, reading it either ends (with success or an exception) after at most length+1 entries, or does not end at all. It does not end for every file whose entries are readable but whose end entry is missing, and for every file that is cut off inside an entry payload: the end of the stream is never noticed.", "quantifier": "every byte stream", "why_tests_cant": "every truncation point of every file", "anchors": ["src/vfbLib/vfb/vfb.py:Vfb.read_stream", "src/vfbLib/vfb/entry.py:VfbEntry._read_entry"]}
{"id": "C12", "title": "drop_keys removes exactly the dropped entries", "statement": "Reading with drop_keys yields exactly the sub-list of entries whose id is not in the set, in file order, and everything else learned from the file (master count, platform, stem counts) is unaffected.", "quantifier": "every file, every set of ids", "why_tests_cant": "all sets and all files", "anchors": ["src/vfbLib/vfb/vfb.py:Vfb.read_stream", "src/vfbLib/vfb/vfb.py:Vfb.decompile"]}
{"id": "C13", "title": "Decompile and compile are idempotent and failure-atomic per entry", "statement": "After decompile succeeded a second decompile changes nothing; after compile succeeded a second compile changes nothing; when a parser or compiler fails the entry keeps the data it had and the error is recorded (for an entry without pending master data; what happens to those is C43); decompiling a whole font leaves each entry either as it was or decompiled, and if it succeeds all entries that are not dropped are decompiled. (Known defect, also proved: writing to a path empties the target file before compiling, so a compile error destroys the old file.)", "quantifier": "every entry, every byte payload, every operation history", "why_tests_cant": "all histories of compile/decompile calls and all malformed payloads", "anchors": ["src/vfbLib/vfb/entry.py:VfbEntry.compile", "src/vfbLib/vfb/entry.py:VfbEntry.decompile"]}
{"id": "C14", "title": "The header of an entry shows the size of the data at its first access", "statement": "After any history of set-data, compile and decompile operations that does not ask for the header, the header shows the size of the current data. (Known defect, also proved: once asked for, the header never changes again, under any history; so a font that is written, changed and written again is damaged, with the old size in front of the new payload.)", "quantifier": "every history of set-data / compile / decompile / write operations", "why_tests_cant": "histories of unbounded length", "anchors": ["src/vfbLib/vfb/entry.py:VfbEntry.header", "src/vfbLib/vfb/vfb.py:Vfb.write_bytes"]}
{"id": "C15", "title": "Every entry type with a compiler survives decompile-compile-decompile", "statement": "For every entry id in the table of entry classes, whatever the settings of the font, if decompiling a payload (of less than 2 GB) gives a value, then compiling that value succeeds and decompiling the result gives an equal value, with exactly these exceptions: non-empty text in the entries Block Names End and Block Font Info Start, FontLab 3 kerning pairs, instance coordinates that int(10000*x) does not reproduce, unknown mapping modes, class flags or anchor properties below -1131, bitmaps in Windows files, Unicode range bits above 127, U+FEFF in Mac Roman names, TrueType info without a mandatory key or with unknown settings, truncated or negative PCLT fields, undocumented export or font options, guide angles that the floating-point functions do not reproduce, guide colours of more than 24 bits, outlines without masters or whose compiled form exceeds 2 GB, anchors with another number of masters than the font, and glyphs outside the conditions of C42. The ids and keys in the table are unique, and each id has the kind of data that the list of entries assigns to it. Unknown ids are decompiled to hexadecimal digits and have no compiler. An entry without data (None) is compiled to an empty payload if it holds raw data or text, to four zero bytes if it is the vendor id, raises an exception if it is any other known entry, and stays as it is if its id is unknown. (Known defect, also proved: non-empty text in Block Names End and Block Font Info Start never survives, because it is read as text and written as hexadecimal digits.)", "quantifier": "every entry id, every payload, all settings", "why_tests_cant": "144 entry types times all payloads", "anchors": ["src/vfbLib/constants.py:parser_classes", "src/vfbLib/parsers", "src/vfbLib/compilers"]}
{"id": "C16", "title": "Whole-file round trip", "statement": "Reading a file, decompiling all entries, writing it and reading and decompiling it again succeeds and yields the same header and settings and, entry by entry, the same ids and equal data in the same order, provided that each entry is of a known id and its data are not among the exceptions of C15; writing the result again gives the same bytes as the first time, so that one cycle brings a file to its final form.", "quantifier": "every byte string of less than 2 GB that is accepted as a file, also one with other header lengths, long entry headers or bytes after the end entry; no compiled entry of 4 GB or more", "why_tests_cant": "all combinations of entries", "anchors": ["src/vfbLib/vfb/vfb.py:Vfb.read_stream", "src/vfbLib/vfb/vfb.py:Vfb.decompile", "src/vfbLib/vfb/vfb.py:Vfb.write_bytes"]}
{"id": "C17", "title": "Unknown and raw entries are preserved as hex", "statement": "The hex string shown for an entry without special parser determines its bytes: compiling it returns the original payload, and an entry id that is not in the table can be read, decompiled and written without loss. A text is accepted as hex data exactly if it consists of pairs of hexadecimal digits (upper or lower case), one pair per byte, with optional ASCII white space between the pairs; the compiled entry then holds exactly these bytes.", "quantifier": "every byte payload", "why_tests_cant": "all payloads", "anchors": ["src/vfbLib/parsers/base.py:BaseParser._parse", "src/vfbLib/compilers/base.py:HexStringCompiler", "src/vfbLib/helpers.py:hexStr", "src/vfbLib/helpers.py:deHexStr"]}
{"id": "C18", "title": "Bit lists and integers convert without loss", "statement": "binaryToIntList returns the strictly increasing list of set bit positions (shifted by start), intListToBinary is its inverse, in both directions on increasing lists, and it terminates on every non-negative integer.", "quantifier": "every non-negative integer, every list of bit numbers", "why_tests_cant": "unbounded integers", "anchors": ["src/vfbLib/helpers.py:binaryToIntList", "src/vfbLib/helpers.py:intListToBinary"]}
{"id": "C19", "title": "Encoded value lists round-trip", "statement": "A list of encodable integers compiled as value list (with or without count) parses to the same list.", "quantifier": "every list of integers", "why_tests_cant": "lists of every length", "anchors": ["src/vfbLib/parsers/base.py:EncodedValueListParser", "src/vfbLib/compilers/base.py:EncodedValueListCompiler", "src/vfbLib/parsers/base.py:EncodedValueListWithCountParser", "src/vfbLib/compilers/base.py:EncodedValueListWithCountCompiler"]}
{"id": "C20", "title": "Glyph encoding entries round-trip", "statement": "A (glyph index, name) pair with a 16-bit index and an encodable name compiles and parses back to itself.", "quantifier": "every pair", "why_tests_cant": "all names", "anchors": ["src/vfbLib/parsers/base.py:GlyphEncodingParser", "src/vfbLib/compilers/base.py:GlyphEncodingCompiler"]}
{"id": "C21", "title": "Mapping mode round-trips", "statement": "A mapping mode dictionary with one of the three known modes and numbers that fit 32 bits compiles and parses back to itself. A mapping mode that was parsed from a file survives compile and parse exactly if its mode is a known one; every unknown mode number parses to its decimal text and makes compile raise KeyError. (Known defect, also proved: an entry without all four keys raises UnboundLocalError.)", "quantifier": "every mapping mode dictionary, every payload", "why_tests_cant": "all payloads", "anchors": ["src/vfbLib/parsers/base.py:MappingModeParser", "src/vfbLib/compilers/base.py:MappingModeCompiler"]}
{"id": "C22", "title": "Kerning and metrics class flags round-trip", "statement": "Kerning and metrics class flags with encodable names and flags from -1131 to 2^31-1 compile and parse back to the same dictionary in the same order; what was parsed from a file survives exactly if no flag is below -1131. (Known defects, also proved: flags are written unsigned and read signed, so a flag from 2^31 to 2^32-1 comes back reduced by 2^32, and a parsed flag below -1131 cannot be written.)", "quantifier": "every dictionary", "why_tests_cant": "dictionaries of any size", "anchors": ["src/vfbLib/parsers/base.py:OpenTypeKerningClassFlagsParser", "src/vfbLib/compilers/base.py:OpenTypeKerningClassFlagsCompiler", "src/vfbLib/parsers/base.py:OpenTypeMetricsClassFlagsParser", "src/vfbLib/compilers/base.py:OpenTypeMetricsClassFlagsCompiler"]}
{"id": "C23", "title": "Bitmap run-length coding is lossless", "statement": "Encoding any byte sequence into run-length chunks and decoding the chunks yields the original bytes; every chunk that is emitted is accepted by the chunk reader with its announced length.", "quantifier": "every byte list", "why_tests_cant": "runs of any length, chunk boundaries at 127/128 bytes", "anchors": ["src/vfbLib/compilers/bitmap.py:flush_buffer", "src/vfbLib/compilers/bitmap.py:BaseBitmapCompiler._encode_bitmap", "src/vfbLib/parsers/bitmap.py:BaseBitmapParser._read_bitmap", "src/vfbLib/parsers/bitmap.py:BaseBitmapParser._decode_bitmap"]}
{"id": "C24", "title": "Bitmap entries round-trip", "statement": "In files that are not from Windows, background and glyph bitmaps compile and parse back to the same structure, and so does everything parsed from a file. In Windows files the parser returns the complemented bytes, and a parsed background survives compile and parse exactly if it has no pixel at all. (Known defect, also proved: the compiler complements with the wrong sign, so that every bitmap of a Windows file with at least one byte is refused.)", "quantifier": "every bitmap list, both platforms", "why_tests_cant": "all sizes and contents", "anchors": ["src/vfbLib/parsers/bitmap.py", "src/vfbLib/compilers/bitmap.py"]}
{"id": "C25", "title": "Simple numeric entries round-trip", "statement": "Int16, signed Int16/Int32, integer list, double, double list and Panose entries compile and parse back to the same value for every representable value, and reject the others.", "quantifier": "every value", "why_tests_cant": "all values", "anchors": ["src/vfbLib/parsers/numeric.py", "src/vfbLib/compilers/numeric.py"]}
{"id": "C26", "title": "Unicode range bits round-trip", "statement": "Any set of bit numbers below 128 survives compile and parse as the increasing list of its members; what was parsed from a file survives exactly if all numbers are below 128; larger numbers are refused. (Known defect, also proved: a repeated number is added, so that [3, 3] is stored as bit 4.)", "quantifier": "every set of bit numbers", "why_tests_cant": "2^128 sets", "anchors": ["src/vfbLib/parsers/numeric.py:UnicodeRangesParser", "src/vfbLib/compilers/numeric.py:UnicodeRangesCompiler"]}
{"id": "C27", "title": "Text entries round-trip", "statement": "String entries return the text without leading and trailing NULs and compile back to it; the vendor id is padded to four bytes and parses back unpadded; OpenType feature text is split into a normalised structure whose recompilation parses to the same structure.", "quantifier": "every string", "why_tests_cant": "all strings", "anchors": ["src/vfbLib/parsers/text.py", "src/vfbLib/compilers/text.py"]}
{"id": "C28", "title": "Name records round-trip", "statement": "Name records compile and parse back to the same list, Mac records through Mac Roman and others character by character; what was parsed from a file survives exactly if no Mac record contains U+FEFF, which the parser substitutes for an invalid code. (Known defects, also proved: U+FEFF and characters without Mac Roman code are written as \"?\"; a Mac code above 255 makes the parser raise OverflowError.)", "quantifier": "every list of name records", "why_tests_cant": "all lists", "anchors": ["src/vfbLib/parsers/text.py:NameRecordsParser", "src/vfbLib/compilers/text.py:NameRecordsCompiler"]}
{"id": "C29", "title": "FontLab version entry round-trips", "statement": "Version dictionaries compile and parse back to the same platform and version.", "quantifier": "every version dictionary", "why_tests_cant": "all values", "anchors": ["src/vfbLib/parsers/flversion.py", "src/vfbLib/compilers/flversion.py"]}
{"id": "C30", "title": "Guides round-trip for every number of masters", "statement": "Guide dictionaries with one position and angle per master compile and parse back with all positions unchanged and every angle passed through the two conversion functions of the library (angle to slope and back), whatever these functions are; if they are inverse to each other on the values at hand the dictionary comes back unchanged, and the same holds for everything parsed from a file; a guide with fewer values than masters is refused.", "quantifier": "every guide dictionary and master count", "why_tests_cant": "any number of guides and masters", "anchors": ["src/vfbLib/parsers/guides.py:parse_guides", "src/vfbLib/compilers/guides.py:GuidesCompiler"]}
{"id": "C31", "title": "Guide properties round-trip", "statement": "Guide property lists with non-zero 32-bit indices, #rrggbb colours and encodable names compile and parse back to the same list, and so does everything that was parsed from a file and has six-digit colours. (Known defects, also proved: index 0 ends the list early; a stored colour of more than 24 bits changes.)", "quantifier": "every property list", "why_tests_cant": "all lists and colours", "anchors": ["src/vfbLib/parsers/guides.py:GuidePropertiesParser", "src/vfbLib/compilers/guides.py:GuidePropertiesCompiler"]}
{"id": "C32", "title": "PostScript info and hinting options round-trip", "statement": "PostScript info dictionaries whose values fit their fields compile and parse back to themselves, others are refused; the global and per-glyph hinting option lists compile and parse back to themselves when each bit is given once, and every documented option is found at its bit and every other bit is reported by its number; whatever a payload is parsed to compiles and parses back to the same. (Known defect, also proved: an option that is given both by its name and as a bit number comes back as another bit.)", "quantifier": "every dictionary", "why_tests_cant": "all values", "anchors": ["src/vfbLib/parsers/ps.py", "src/vfbLib/compilers/ps.py"]}
{"id": "C33", "title": "PCLT table round-trips", "statement": "A PCLT dictionary whose values fit compiles and parses back, with shorter strings filled with NUL and everything else unchanged; what was parsed from a file survives unchanged exactly if both strings have full length and neither stroke weight nor width type is negative. (Known defect, also proved: negative stroke weights and width types are read but refused by the compiler.)", "quantifier": "every PCLT payload", "why_tests_cant": "all payloads, incl. negative stroke weights", "anchors": ["src/vfbLib/parsers/pclt.py", "src/vfbLib/compilers/pclt.py"]}
{"id": "C34", "title": "Export and font options round-trip", "statement": "Documented export options in table order and font option dictionaries with documented keys compile and parse back to themselves; what was parsed from a file survives exactly if all its options are documented; every stored font option is reported, in the stored order, a documented one under its name and an undocumented one under its number with the stored value, and undocumented ones are refused by the compiler; font options without end marker are refused. (Known defect, also proved: undocumented bits of packed options are lost.)", "quantifier": "every option dictionary and payload", "why_tests_cant": "all bit patterns", "anchors": ["src/vfbLib/parsers/options.py", "src/vfbLib/compilers/options.py"]}
{"id": "C35", "title": "gasp and VDMX tables round-trip", "statement": "A gasp list compiles and parses back to itself exactly when every number is unsigned 16-bit (otherwise compiling is an error); a VDMX list does so when its numbers are 32-bit. Whatever a payload is parsed to can be compiled and parsed again. (Known defect, also proved: a gasp payload with an odd number of 16-bit values silently loses the last one.)", "quantifier": "every list", "why_tests_cant": "any number of records", "anchors": ["src/vfbLib/parsers/truetype.py:GaspParser", "src/vfbLib/parsers/truetype.py:VdmxParser", "src/vfbLib/compilers/truetype.py"]}
{"id": "C36", "title": "TrueType info round-trips and parsing terminates", "statement": "A TrueType info dictionary with the mandatory keys and storable values compiles and parses back to an equal dictionary; so does a parsed one if it has the mandatory keys and no unknown settings. Without a mandatory key compiling is an error, and a key occurring twice in a payload is an error. (Known defects, also proved: unknown settings are parsed to their numbers but dropped when compiling; a payload without the end key makes the parser loop forever.)", "quantifier": "every dictionary, every payload", "why_tests_cant": "all payloads incl. truncated ones", "anchors": ["src/vfbLib/parsers/truetype.py:TrueTypeInfoParser", "src/vfbLib/compilers/truetype.py:TrueTypeInfoCompiler"]}
{"id": "C37", "title": "TrueType stems and PPEM tables round-trip", "statement": "Stems compile and parse back to themselves, keeping of the rounding dict only ppm 6 (and in the PPEM entries only ppm 2-5, 2-3 or 1, for the stem counts of the font), numbered by position. Whatever a payload is parsed to can be compiled and parsed again. A name of more than 255 or of non-Windows-1252 characters, a missing ppm or an oversized number is an error. (Known defect, also proved: the stem number is not stored, so stems come back numbered by position.)", "quantifier": "every list", "why_tests_cant": "any number of stems", "anchors": ["src/vfbLib/parsers/truetype.py:TrueTypeStemsParser", "src/vfbLib/compilers/truetype.py:TrueTypeStemsCompiler"]}
{"id": "C38", "title": "TrueType zones and zone deltas round-trip", "statement": "Zone dictionaries compile and parse back to themselves (a missing side as an empty list); zone delta dictionaries without empty zones parse back to the same deltas; the delta bytes do not depend on the order in which the dictionaries were filled. Whatever a payload is parsed to can be compiled and parsed again. (Known defect, also proved: a zone without deltas is lost.)", "quantifier": "every dictionary", "why_tests_cant": "any number of zones and deltas", "anchors": ["src/vfbLib/parsers/truetype.py:TrueTypeZonesParser", "src/vfbLib/parsers/truetype.py:TrueTypeZoneDeltasParser", "src/vfbLib/compilers/truetype.py"]}
{"id": "C39", "title": "Multiple-master axis entries round-trip", "statement": "Axis mappings always round-trip; anisotropic interpolation maps with 32-bit values, four unsigned 32-bit mapping counts, and master locations with an unsigned 32-bit index and four coordinates round-trip, and everything parsed is like that. Primary instances keep names; coordinates come back cut to ten-thousandths (error below 2/10000; whole numbers exactly; a parsed coordinate changes by at most one ten-thousandth, towards zero). (Known defects, also proved: 0.0003 comes back as 0.0002; an axis map that is cut off is dropped without an error; fewer than four counts are filled up with zeros.)", "quantifier": "every value", "why_tests_cant": "all lists", "anchors": ["src/vfbLib/parsers/mm.py", "src/vfbLib/compilers/mm.py"]}
{"id": "C40", "title": "Custom cmap and binary table entries round-trip", "statement": "Custom cmaps with 32-bit numbers and Windows-1252 names round-trip, others are an error; binary tables with a four-character tag round-trip, and a parsed binary table compiles to exactly the bytes it was parsed from. (Known defect, also proved: a tag of another length is not padded, so the table does not come back.)", "quantifier": "every value", "why_tests_cant": "all tables", "anchors": ["src/vfbLib/parsers/cmap.py", "src/vfbLib/compilers/cmap.py", "src/vfbLib/parsers/binary.py", "src/vfbLib/compilers/binary.py"]}
{"id": "C41", "title": "Glyph outlines round-trip for every number of masters", "statement": "Outline node lists (moves, lines, curves, quadratic curves with flags, absolute points per master) are stored as per-master steps and read back to the same absolute points, for every number of masters; for well-formed nodes and at least one master, writing succeeds exactly if the number of masters and all steps are 32-bit, the flags are below 16 and the outline is not too large. What is read can be written again. (Known defects, also proved: nodes without a master can be read but not written; the number of masters is read unsigned but written signed; a line node with two points is written but not readable.)", "quantifier": "every outline, every master count", "why_tests_cant": "any number of nodes and masters, running sums of deltas", "anchors": ["src/vfbLib/compilers/glyph.py:OutlinesCompiler", "src/vfbLib/parsers/glyph.py:GlyphParser.parse_outlines"]}
{"id": "C42", "title": "Glyph entries round-trip, and their parser terminates", "statement": "A glyph dictionary whose sections (name, outline, metrics, hints with masks, guides, components, kerning, imported binary data, TrueType instructions) agree on the number of masters and hold storable values is compiled, and parsing the result gives the same dictionary apart from dropped empty sections, added empty node lists, and recomputed guide angles; a dictionary in stored form comes back equal. Whatever is parsed from any payload and is complete (consistent number of masters, no empty sections) is written and read back unchanged up to the guide angles. Parsing ends on every payload. (Known defects, also proved: a parsed glyph with an empty name and guides compiles to a payload that cannot be parsed; empty component and kerning sections are lost; incomplete imported data and missing num_masters are rejected; the leading constants are not checked.)", "quantifier": "every glyph dictionary, every payload, every number of masters, every float behaviour of the guide angles and every bytecode assembler", "why_tests_cant": "all combinations of sections", "anchors": ["src/vfbLib/compilers/glyph.py:GlyphCompiler", "src/vfbLib/parsers/glyph.py:GlyphParser"]}
{"id": "C43", "title": "Merging the outlines drawn for other masters", "statement": "When a glyph for which data of other masters have been drawn is compiled in a font with several masters, and every such master has a matching node (same type and flags) for each node and a matching component (same glyph) for each component, then afterwards the points, offsets and scales of master k are those drawn for master k, and everything else (types, flags, component glyphs, all slots of the first master and of masters without data) is as before; otherwise an exception is raised; merging twice is the same as merging once; nothing is merged in single-master fonts, without such data, or in other entries than glyphs. Compiling the glyph entry gives the bytes, or the exception, that compiling the merged glyph gives; if it raises, the entry holds the merged glyph. (Known defects, also proved: surplus nodes in the other master are ignored silently; a merge that fails half-way leaves the glyph partly changed; the drawn data are never discarded, so later edits of those masters are overwritten at the next compilation.)", "quantifier": "every glyph, every list of master data", "why_tests_cant": "any number of masters, nodes and components", "anchors": ["src/vfbLib/compilers/glyph.py:GlyphCompiler.merge", "src/vfbLib/vfb/entry.py:VfbEntry.merge_masters_data"]}
{"id": "C44", "title": "Anchor, origin, unicode, link and sketch entries round-trip", "statement": "Anchors with one pair of coordinates per master, anchor properties, origin, Unicodes, links and sketch entries compile and parse back to themselves; what is parsed can be compiled again. (Known defects, also proved: anchor properties below -1131 can be parsed but not compiled; anchors with too few coordinates are rejected and surplus coordinates are silently dropped.)", "quantifier": "every value", "why_tests_cant": "all lists", "anchors": ["src/vfbLib/parsers/glyph.py", "src/vfbLib/compilers/glyph.py"]}
{"id": "C45", "title": "GDEF data round-trips", "statement": "Glyph GDEF data (class, anchors, carets, classes) compiles and parses back to the same dictionary, with unassigned classes and empty lists removed; what is parsed can be compiled again; unknown class names are rejected. (Also proved: class indexes -1 to -5 are accepted as counted from the end.)", "quantifier": "every GDEF dictionary", "why_tests_cant": "all combinations of optional parts", "anchors": ["src/vfbLib/parsers/glyph.py:GlyphGDEFParser", "src/vfbLib/compilers/glyph.py:GlyphGDEFCompiler"]}
{"id": "C46", "title": "Mask entries round-trip", "statement": "Mask outlines, global masks and mask metrics compile and parse back to themselves; weights are stored in hundred-millionths with an error below that unit, and stored weights are stable. (Also proved: MM mask metrics with a wrong count compile but cannot be parsed.)", "quantifier": "every mask", "why_tests_cant": "all outlines", "anchors": ["src/vfbLib/parsers/glyph.py:MaskParser", "src/vfbLib/compilers/glyph.py:MaskCompiler"]}
{"id": "C47", "title": "FL3 kern pair entries round-trip", "statement": "A FontLab 3 kerning pair entry is read as two unsigned 32-bit indices and one signed 16-bit value per master, and every parsed pair is in these ranges. (Known defect, also proved: no parsed pair can ever be compiled, because the compiler iterates over the keys of the dictionary.)", "quantifier": "every kern pair payload, every number of masters", "why_tests_cant": "all payloads", "anchors": ["src/vfbLib/parsers/fl3.py", "src/vfbLib/compilers/fl3.py", "src/vfbLib/vfb/entry.py:VfbEntry.read"]}
{"id": "C48", "title": "Creation timestamps convert without loss", "statement": "A FontLab timestamp (signed 32-bit, seconds since 1904 with wrap-around) is converted to the date it denotes; timestamps before 1970 give the epoch. Converting a date from 1970 up to 2040-02-07 06:28:16 UTC to a timestamp and back yields the date with the fraction of a second cut off, and converting a timestamp to a date and back yields the timestamp, for every timestamp that is not before 1970; later dates never get earlier timestamps. Numbers that are not signed 32-bit are rejected. (Known defect, also proved: every date from 2040-02-07 06:28:16 UTC on raises OverflowError.)", "quantifier": "every 32-bit timestamp and every date (to the microsecond)", "why_tests_cant": "2^32 timestamps and the float division of the date", "anchors": ["src/vfbLib/ufo/time.py"]}
{"id": "C49", "title": "Kerning groups are disjoint", "statement": "After group conversion every glyph is in at most one first-side and at most one second-side kerning group, namely the first group of that side that listed it; each kerning group keeps exactly the glyphs first listed in it, without repetition and in order; no grouped glyph disappears; groups that are not kerning groups are unchanged; the glyph-to-group maps agree with the resulting groups; converting twice changes nothing. Groups that are named like kerning groups but name neither side are dropped.", "quantifier": "every group dictionary", "why_tests_cant": "any number of groups and any overlap", "anchors": ["src/vfbLib/ufo/groups.py:build_glyph_to_group_maps", "src/vfbLib/ufo/groups.py:rebuild_kerning_groups"]}
{"id": "C50", "title": "Name-based kerning gives every glyph pair the source's kerning value", "statement": "Converting glyph kerning to UFO kerning produces for each master exactly the pairs of the source, in order, with group names substituted for the group's key glyphs and the value of that master (zero pairs are left out); looking any two glyphs up in the UFO kerning with UFO's precedence rules gives the value FontLab's class kerning gives them, provided no key glyph is also a member of another class of the same side. Whatever the input, the kerning names only glyphs and groups that exist: no pair refers to a group that is not in the UFO. (Known defects, also proved: without that proviso a pair can be lost; a negative glyph index silently wraps around to the end of the glyph order, an index past the end raises IndexError.)", "quantifier": "every glyph order, class list, flag dictionary, glyph kerning dictionary, master and pair of glyphs", "why_tests_cant": "any number of pairs and classes", "anchors": ["src/vfbLib/ufo/kerning.py:UfoKerning", "src/vfbLib/ufo/groups.py:transform_groups"]}
{"id": "C51", "title": "PostScript hints keep their stems", "statement": "Normalising a hint never changes the edges of its stem, gives non-negative widths except for ghost hints (which it keeps), and is idempotent. The stems of a master are the normalised hints followed by one stem per link, in order, each spanning the coordinates of the linked nodes of that master. For a glyph without components, the hint sets written to the UFO are: without masks one set with all stems, at the name of point 0; with masks one set per node at which the hints are replaced and whose section has stems, in order of first appearance, with exactly the stems the masks of the last section for that node select, sorted and without repetition; no mask makes the conversion fail unless it has a negative index out of range. (Known defects, also proved: stems of links are not normalised; a link between nodes at distance -20 becomes indistinguishable from a ghost hint.)", "quantifier": "every hint, every link, every master, every list of masks, every label state reachable by any history", "why_tests_cant": "all integers, any number of hints, links and masks", "anchors": ["src/vfbLib/ufo/pshints.py:normalize_hint", "src/vfbLib/ufo/pshints.py:get_master_hints", "src/vfbLib/ufo/pshints.py:build_ps_glyph_hints"]}
{"id": "C52", "title": "Point labels are unique and stable", "statement": "Over any history of label requests over all glyphs of a font, two requests for a glyph return the same label if and only if they name the same point (except for the placeholder 'invalid'); the label of a point of a glyph without components becomes the name of that point and of no other; only the two points after the last node are called lsb and rsb; a request with a known code always succeeds and takes the first free number; in a glyph with components the label is that of the component's point with the number of the component appended, and points past the phantom points are 'invalid'. Unknown codes raise KeyError. Glyph sorting is a strict total order, glyphs without components first.", "quantifier": "every history of label requests, every font", "why_tests_cant": "histories of unbounded length over any font", "anchors": ["src/vfbLib/ufo/glyph.py:get_point_label", "src/vfbLib/ufo/glyph.py:VfbToUfoGlyph.__lt__"]}
{"id": "C53", "title": "Reading into a used Vfb object replaces its contents", "statement": "Whatever byte string one Vfb accepts as a file is accepted by any other Vfb with the same options and number of masters, whatever that was used for before, and gives the same header and entries, and the same settings if the file has FL version, master count and TrueType stems entries; the number of masters itself does not matter for files in the form in which this library writes them. (Known defects, also proved: glyph names stay those of the first file for ever; a file without master count takes over the old number of masters.)", "quantifier": "every byte string accepted as a file, every pair of Vfb objects", "why_tests_cant": "all pairs of histories", "anchors": ["src/vfbLib/vfb/vfb.py:Vfb.clear", "src/vfbLib/vfb/vfb.py:Vfb.read_bytes"]}
{"id": "C54", "title": "What glyph access by name does to the font", "statement": "Asking for the glyph names gives one name per glyph entry, all different (a free suffix is always found), changes neither header nor settings nor any entry that is not a glyph, except that links and hinting options are decompiled; a second call gives the same names and changes nothing. (Known defects, also proved: it replaces the data of every glyph entry with an empty glyph; after a failure a second call returns the incomplete list without an error.)", "quantifier": "every file, every sequence of lookups", "why_tests_cant": "all histories", "anchors": ["src/vfbLib/vfb/vfb.py:Vfb._decompile_glyphs", "src/vfbLib/vfb/glyph.py:VfbGlyph.__init__"]}
{"id": "C55", "title": "Contours keep their path, points and names", "statement": "Converting the nodes of one master to UFO contours gives one contour per 'move' node, in order, that describes the same path (same segments, off-curve points and end points; closed unless the open flag is set or the node stands alone). Every node becomes one point, in order, with its smoothness and name; only in a closed contour whose last curve ends at the start do the first and last point become one, and then the point carries one of the names and the other one is recorded as renamed, so that every named node is found under its current name, at its coordinates and nowhere else. TrueType commands are renamed accordingly. Masks become contours without names. Nodes without flags or points in the master raise. (Known defects: the hint replacement points of PostScript hint sets are not renamed, and the TrueType program in the lib is written before the renaming.)", "quantifier": "every outline, every master, every label dictionary", "why_tests_cant": "any number and mix of contours, nodes and names", "anchors": ["src/vfbLib/ufo/paths.py:UfoMasterGlyph._extract_master_contours", "src/vfbLib/ufo/paths.py:UfoMasterGlyph._apply_closepath", "src/vfbLib/ufo/paths.py:UfoMasterGlyph._finalize_point_labels"]}
{"id": "C56", "title": "Splitting feature code loses no line", "statement": "If feature code has at least one line that opens a feature, build_fea_dict splits it into a prefix and features whose concatenation is the input, the prefix opens no feature, and each feature starts with the line that opens it and has no other such line. (Known defect, also proved: code that opens no feature is lost altogether.)", "quantifier": "every list of lines and every feature-start matcher", "why_tests_cant": "any number of lines, features and comments", "anchors": ["src/vfbLib/parsers/text.py:OpenTypeStringParser.build_fea_dict"]}
{"id": "C57", "title": "Decompiling ends on every payload", "statement": "For every entry id other than TrueType info, all settings and every payload, however malformed, decompiling ends with a value or an exception; no payload can make the parser run forever (provided that the TrueType disassembler ends). (Known defect, also proved: a TrueType info entry with negative head flags, or without end key, makes the parser run forever.)", "quantifier": "every entry id, every payload, all settings", "why_tests_cant": "all malformed and truncated payloads", "anchors": ["src/vfbLib/constants.py:parser_classes", "src/vfbLib/parsers", "src/vfbLib/parsers/truetype.py:convert_int_to_flags_options", "src/vfbLib/helpers.py:binaryToIntList"]}
{"id": "C58", "title": "OpenType and kerning classes become groups", "statement": "Converting classes to groups yields, for each class in order, one group per final name (a kerning class of both sides yields two groups, public.kern1. and public.kern2.; other classes keep their name), each with the class's glyphs with the key glyph mark removed; the group names are unique, the group order lists them, and the key glyph of each class is recorded under each of its names. With the option to skip missing glyphs, a group contains only glyphs of the font. (Known defects, also proved: a class all of whose glyphs are missing keeps them all; a class that is already named like the UFO kerning group of another class takes its place if it comes first, and otherwise replaces its glyphs but not its key glyph and is listed twice in the group order.)", "quantifier": "every class list, flag dictionary and glyph order", "why_tests_cant": "any number of classes and glyphs", "anchors": ["src/vfbLib/ufo/groups.py:transform_groups"]}
{"id": "C59", "title": "TrueType commands keep their meaning in the UFO", "statement": "The TrueType commands of a glyph correspond one to one, in order, to its instructions: same operation, zone and stem by name, alignment, delta values, and each point by its label. A command point that refers to node k is, in every master, the name of a contour point with the coordinates of node k and of no point elsewhere, even when nodes were joined; the numbers after the last node are the side bearings. Complete instructions always convert; unknown ones raise KeyError; with index labels (vfb2tth) the same holds with numbers as names. (Known defect, also proved: the program text in the lib is made before joined points are renamed and can name a point that does not exist.)", "quantifier": "every instruction list, glyph, label state reachable by any history, zone and stem table", "why_tests_cant": "any number and order of instructions, any earlier labels", "anchors": ["src/vfbLib/ufo/tth.py:TTGlyphHints.get_tt_glyph_hints", "src/vfbLib/ufo/glyph.py:get_point_label", "src/vfbLib/ufo/paths.py:UfoMasterGlyph.build"]}
{"id": "C60", "title": "The TrueType program in the lib can be read back", "statement": "Parsing the XML text of the TrueType program in a glyph lib gives back the commands in order, each with exactly its code and attribute values, whatever characters the zone, stem and point names contain (True is written 'true'). Without commands no text is written.", "quantifier": "every list of converted commands, all names", "why_tests_cant": "all strings, including quotes, entities and markup characters", "anchors": ["src/vfbLib/ufo/tth.py:set_tth_lib", "src/vfbLib/ufo/tth.py:tt_cmd_dict_to_xml"]}
{"id": "C61", "title": "TrueType stems in the UFO carry every rounding value of the file", "statement": "When a VFB with TrueType stems is converted, every stem of each direction gets its width, its name and, for every ppm at which the file starts a pixel width (1 px, 2-5 px and 6 px come from three different entries), the largest width that starts there, whether the entry for 1 px comes before or after the stems; stems are only accepted if each has a record of ppms whose number is the stem's position. The UFO lib lists the horizontal stems and then the vertical stems, unnamed ones under a letter and their number among the unnamed ones, with nothing lost if these names are all different. (Known defects, also proved: stems before their ppms raise IndexError; an unnamed stem never appears under the empty name that hinting commands use for it; of three stems of the same name in a direction the third takes the place of the second.)", "quantifier": "all stem tables numbered as in the file, of any length, in every order of the entries; all names", "why_tests_cant": "three entries are merged through shared dictionaries, for any number of stems and any coincidence of ppm values and names", "anchors": ["src/vfbLib/ufo/builder.py: set_tt_stem_ppms, set_tt_stem_ppms_1, set_tt_stems, build_tt_stems_lib", "src/vfbLib/ufo/tth.py: transform_stem_rounds"]}
{"id": "C62", "title": "TrueType zones and their deltas in the UFO are those of the file", "statement": "Zones with different names all appear in the UFO, bottom zones first, with position, width and side; an alignment command for the k-th zone of a side names the k-th zone of that side; the delta table number i ends up on the zone number i counted through the bottom and then the top zones, with the same values under decimal ppm keys, and nothing else changes; deltas for a zone number beyond the last raise IndexError. (Known defect, also proved: of zones with the same name only the last one is kept and commands for the others refer to it.)", "quantifier": "all lists of zones and all delta tables with numbers in range", "why_tests_cant": "it depends on every combination of names and indices", "anchors": ["src/vfbLib/ufo/builder.py: set_tt_zones, set_tt_zone_deltas, build_tt_zones_lib"]}
{"id": "C63", "title": "vfb2tth exports all stems, zones and commands of the file, under unique names", "statement": "For a file with one entry each for stems, stem ppems (a full table), zones and zone deltas (numbers in range), an empty or no entry for the ppems of 1 pixel, and glyphs with different names after them, the export succeeds if every command refers to existing zones and stems. It lists all stems (V, then H) and zones (bottom, then top) in order, under names that are the names of the file except that a name already in use gets a number, all different; with width, direction, position and side; the rounding values in ascending order and the deltas by ascending ppm with the values of the file; the commands of each glyph are those of the file with the unique names of zones and stems; numbers and the gasp table are the last ones of the file. (Known defects, also proved: where 5 and 6 pixels start at the same ppm the export says 5; a file without an entry for zone deltas, stems or zones cannot be exported, nor one with ppems for 1 pixel (KeyError).)", "quantifier": "all sequences of entries, all stems, zones, deltas and commands", "why_tests_cant": "it depends on every combination of duplicate names, ppms and orders of entries", "anchors": ["src/vfbLib/tth.py: extract_truetype_hinting, extract_tt_stems, extract_tt_stem_ppems, extract_tt_stem_ppem_1, extract_tt_zones, extract_glyph_hints, merge_stem_information, merge_zone_information"]}
{"id": "C64", "title": "Each UFO glyph holds the data of its own glyph in the font, and nothing else", "statement": "When a decompiled font is converted, each glyph of the UFO holds exactly the data of one glyph of the font: outline, metrics, components, guides, hints and hinting commands of its \"Glyph\" entry, and the code points, note, mark, links, anchors, guide properties, mask, mask metrics, background image, bitmaps and user data of the entries between that entry and the next glyph (all code points and mask metrics in their order, of the others the last one; entries that are skipped in minimal mode are absent). The UFO's glyph order lists exactly its glyphs. With data of the right types, conversion of the glyphs succeeds exactly if each glyph has got a name, metrics and an outline section and no entry about a glyph comes before the first glyph; otherwise it raises KeyError or AssertionError.", "quantifier": "all sequences of decompiled entries (any number of glyphs, any entries between them, any order), all option combinations", "why_tests_cant": "the builder keeps a current glyph while it walks over the entries; that no data leak into a neighbouring glyph must hold for every sequence of entries", "anchors": ["src/vfbLib/ufo/builder.py: VfbToUfoBuilder.build, build_mm_glyph, set_glyph_background, set_glyph_bitmaps", "src/vfbLib/ufo/glyph.py: VfbToUfoGlyph", "src/vfbLib/constants.py: ignore_minimal_keys"]}
{"id": "C65", "title": "Glyph names and glyph order of the UFO", "statement": "If the glyph names in the font are all different, the UFO's glyphs have these names in this order, and the kerning pairs are those of the font's glyphs under these names. If names are repeated (not more than 255 glyphs with names that begin alike), and the last glyph's name is not among those given before, no glyph is lost, all UFO names are different, each is the name in the font or that with \"#\" and a number, and the i-th glyph of the font is the one with the i-th name of the glyph order, so that glyph indices in components and kerning stay valid. (Known defects, also proved: if the last glyph's name is a duplicate, it replaces the glyph of that name, and the glyph order lists the name twice; if a name and all of its 255 numbered forms are taken, a further glyph of that name is dropped and all following indices refer to the wrong glyphs; the kerning of a renamed glyph is filed under the name in the font, i.e. that of another glyph.)", "quantifier": "all sequences of entries, all glyph names including repeated ones and ones that already look like numbered names", "why_tests_cant": "collisions of generated names with existing ones depend on the whole history of names", "anchors": ["src/vfbLib/ufo/builder.py: VfbToUfoBuilder.build (case G.Glyph, end of the loop), build_mm_glyph"]}
{"id": "C66", "title": "Converting a font does not change it", "statement": "Converting a decompiled font to UFO leaves every glyph-level entry of the font as it is for writing (it is compiled to the same bytes before and after), and a second conversion gives the same glyphs, order and kerning, provided that PostScript hints are not converted or no glyph has got hint masks. (Known defect, also proved: if PostScript hints are converted, hint masks are deleted from the font's own data: the second conversion gives the same glyphs with all hint masks missing.)", "quantifier": "all entries, all sequences of entries, all options", "why_tests_cant": "the builder shares dictionaries with the font object; absence of lasting side effects must hold for every font", "anchors": ["src/vfbLib/ufo/builder.py: build_mm_glyph, set_glyph_background", "src/vfbLib/compilers/glyph.py: GlyphCompiler", "src/vfbLib/compilers/bitmap.py: BackgroundBitmapCompiler"]}
{"id": "C67", "title": "What is drawn into a glyph can be read back", "statement": "TrueType contours that begin on the curve, without smooth points and point names, drawn into a glyph with its point pen, are added to its contours and come out of drawPoints unchanged in every master, after those that were there; no other contour comes back unchanged. If every master is cleared and drawn anew with compatible contours of this kind, the masters can be merged when the glyph is compiled, its components stay, and each master has got exactly its own contours. Coordinates are rounded to the nearest whole number. A component is stored with the index of the first glyph of that name and its offset and scale for all masters. A 'curve' or 'move' point after the first point of a contour raises ValueError and leaves the glyph without the contour; an unknown component name raises ValueError; points outside of a path and components inside of one raise AssertionError. (Known defects, also proved: a contour that begins off the curve gets an on-curve first point; smooth flags and names are lost; rotation and skew of components are lost; getPointPen of another master raises IndexError if no master was cleared before, and after that no such master can be cleared.)", "quantifier": "all contours, all numbers of masters, all previous contents of the glyph, all sequences of calls", "why_tests_cant": "the round trip must hold for every combination of contours, masters and earlier contents", "anchors": ["src/vfbLib/vfb/pens.py: VfbGlyphPointPen", "src/vfbLib/vfb/glyph.py: VfbGlyphMaster.clearContours, getPointPen, drawPoints", "src/vfbLib/vfb/entry.py: VfbEntry.merge_masters_data", "src/vfbLib/compilers/glyph.py: GlyphCompiler.merge"]}
{"id": "C68", "title": "Drawing a glyph to a segment pen", "statement": "draw() calls the pen for contour after contour: moveTo, the segments in order, endPath for an open and closePath for a closed contour; then addComponent for each component with the name of its glyph and its scale and offset in the master; this holds if no contour but the last one ends in quadratic off-curve points, and no cubic curve follows such points directly. (Known defects, also proved: quadratic off-curve points at the end of the last contour are not drawn; at the end of another contour they become a curve to the start of the next contour; a cubic curve directly after them is drawn before the quadratic one.)", "quantifier": "all glyphs, all masters", "why_tests_cant": "the state of the loop carries over between contours, so every sequence of node types matters", "anchors": ["src/vfbLib/vfb/glyph.py: VfbGlyph.draw"]}
{"id": "C69", "title": "Drawing a glyph directly to a point pen", "statement": "drawPointsDirect() draws contour after contour, each with the start, segments and trailing off-curve points of the contour as an open path, then each component with the name of its glyph and the scale and offset of the master; so the path is the same as that of drawPoints() exactly for open contours and single points. (Known defects, also proved: closed contours come out as open ones; if a contour that is not the last one ends in quadratic off-curve points, a point at the start of the next contour is added to it.)", "quantifier": "all glyphs, all masters", "why_tests_cant": "every sequence of node types over all contours matters", "anchors": ["src/vfbLib/vfb/glyph.py: VfbGlyph.drawPointsDirect"]}
{"id": "C70", "title": "Hint sets of a glyph", "statement": "resolve_hints() gives the same stems as the UFO export (hints with the same edges in the master, then links). resolve_hint_sets() gives one set at node 0 with all of them if there are no hint masks; otherwise one set per section of masks between replacements, with exactly the stems named by the masks in order, under the number of the replacement before the section (0 for the first one); sections without stems are left out, of several with one number the last one counts, and an exception is raised exactly if a mask names no hint. (Known defect, also proved: negative replacement numbers are kept as they are, while the UFO export takes them for another node.)", "quantifier": "all hints, links, masks, masters", "why_tests_cant": "masks are an arbitrary program of stems and replacements", "anchors": ["src/vfbLib/vfb/glyph.py: VfbGlyph.resolve_hints, resolve_links, resolve_hint_sets", "src/vfbLib/ufo/pshints.py: get_master_hints, normalize_hint"]}
{"id": "C71", "title": "Masters of the UFO export", "statement": "After conversion the master names are the MasterName entries in file order; if they are fewer than the number the code expects for the axis count (1 without axes, otherwise its square), names \"m<i>\" are appended up to that number. There is always at least one master, so conversion never ends without a UFO. (Known defect, also proved: the expected number is the square of the axis count, not a power of two: one axis without names gives one master, three axes with eight names a ninth one.)", "quantifier": "all entry sequences of a file that can be converted, all options", "why_tests_cant": "entries of all kinds may be interleaved in any order and number", "anchors": ["src/vfbLib/ufo/builder.py: VfbToUfoBuilder.build, fix_masters_count"]}
{"id": "C72", "title": "Designspace sources match the written UFOs", "statement": "The paths of the master UFOs are pairwise different: the given path, and for master i>0 the path with \"-i\" before the extension (at the end if the name has no extension). The designspace document has as many sources as MasterCount says; source i has the path of master UFO i, which is written, its stripped name, and for every axis the coordinate the file's last MasterLocation for i+1 stores, times 1000 (within one rounding). Exactly stated when the document can be made at all: MasterCount present and not larger than the number of masters, no empty axis name, a location with enough coordinates for each master, instances with enough values.", "quantifier": "all files that can be converted, all output paths", "why_tests_cant": "ranges over all entry sequences, axis names and locations", "anchors": ["src/vfbLib/ufo/builder.py: write, get_designspace, get_master_path", "src/vfbLib/ufo/designspace.py: get_ds_master_location"]}
{"id": "C73", "title": "Designspace instances", "statement": "The instances of the designspace document are the primary instances of the file in order, named \"instance_<i>\" (pairwise different), with their style name, file name, style map name and a coordinate for each axis; two of them share a file name iff they share a style name. A font with exactly one axis gets one axis label per instance at its first coordinate, other fonts none.", "quantifier": "all files that can be converted, all family names", "why_tests_cant": "any number of instances and axes", "anchors": ["src/vfbLib/ufo/builder.py: get_designspace", "src/vfbLib/ufo/designspace.py: get_ds_instance_location"]}
{"id": "C74", "title": "Axis mappings and tags", "statement": "When axis mappings are stored, axis j with a positive count n gets exactly the first n of the ten mappings that belong to it, each with its design coordinate times 1000 rounded, and its minimum, default (= minimum) and maximum are the least and greatest user coordinates of these mappings (0 and 1000 if none are left); all other axes stay without mapping and range, and names and order of axes are those of the file. The entry is accepted exactly if the counts came before, cover all axes, a mapped axis has its name, and the coordinates are finite; a coordinate that is a NaN raises ValueError, an infinite one OverflowError, and a NaN is neither less nor greater than any number. The tag of an axis is the registered one for Weight, Width, Optical Size and Serif, and at most the first four characters of the upper-case name otherwise. Anisotropic mappings change nothing; only non-trivial ones can fail, exactly if fewer axes or lists than the stated number of axes exist.", "quantifier": "all mappings, counts and axes, all entry sequences around them", "why_tests_cant": "ranges over all doubles and all numbers of axes", "anchors": ["src/vfbLib/ufo/builder.py: add_axis_mappings, build"]}
{"id": "C75", "title": "Glyph classes of the file", "statement": "Converting a file to UFO keeps its glyph classes: there is exactly one class per distinct name among the class texts \"name: glyphs\", in file order, with the glyphs (and their marks) of the first text of that name; texts without a colon are ignored. The feature code is that of the last feature entry, line by line (see C77), the kerning class flags those of the last flag entry. The classes can be converted exactly if no class text has more than one colon; otherwise a ValueError is raised.", "quantifier": "all entry sequences, all class texts", "why_tests_cant": "any number of classes, any text, any order of entries", "anchors": ["src/vfbLib/ufo/builder.py: add_ot_class, build"]}
{"id": "C76", "title": "Groups and feature code of the UFO", "statement": "No class gets lost between groups.plist and features.fea: a class that is no kerning class is in the groups of the UFO with all its glyphs, or (when groups are moved) is defined in the feature text; the feature text is exactly the definitions of the classes that belong there, in order, followed by the feature code. Kerning groups are those of C49/C50 and the kerning refers only to existing groups unless both options (kerning groups in feature code, move groups) are given. The conversion succeeds exactly if every kerning pair refers to a glyph of the font. (Known defects, also proved: with both options, the kerning refers to groups missing from the UFO; public.groupOrder still lists the moved groups.)", "quantifier": "all classes with unique names that do not look like UFO kerning groups, all flags, glyph orders, kerning tables and options", "why_tests_cant": "any number of classes and pairs, all combinations of options", "anchors": ["src/vfbLib/ufo/builder.py: get_ufo_masters", "src/vfbLib/ufo/groups.py: transform_groups", "src/vfbLib/ufo/kerning.py: UfoKerning"]}
{"id": "C77", "title": "Kerning classes in feature code", "statement": "Renaming kerning classes in the feature code changes only rules \"[enum] pos left right value\": there a reference @_X on the left becomes @public.kern1._X and on the right @public.kern2._X (the groups which the class _X becomes), everything else including indentation, value and comment is kept up to the number of spaces; all other lines stay as they are, the number and order of lines stays, and renaming twice is the same as renaming once. (Known defects, also proved: two spaces between left and right hide a rule; inside a glyph list the wrong side is renamed.)", "quantifier": "all lines of text", "why_tests_cant": "ranges over all texts; depends on backtracking of a regular expression", "anchors": ["src/vfbLib/ufo/features.py: rename_kern_classes_in_feature_code"]}
{"id": "C78", "title": "Font info of the UFO", "statement": "Each attribute of the UFO's font info has the value that the last entry of the file says that says anything about it (ignored entries and entries without data do not count); without such an entry it has its documented default or is not set. What an entry says is fixed and unambiguous: texts and numbers are copied, the family and style name also become the preferred names, the weight class is clipped to 1..1000, flags become sorted lists of bit positions, code page bits of the second word are shifted by 32, the family class is split into class and subclass, the creation time is the one of C48. The underline position is the stored one plus half the thickness, rounded to nearest with ties to even (middle of the line to top of the line). The conversion succeeds exactly if bit sets are not negative, the creation time fits 32 bits, the control values are an even number of bytes and the programs can be disassembled. The family name of the designspace document is the preferred family name, or the family name if that is empty. (Known defects, also proved: the style bits regular and italic together give the style map name 'regular italic', which the UFO specification does not allow.)", "quantifier": "all lists of decompiled entries, all build options, all attributes", "why_tests_cant": "ranges over all histories of entries, all values and bit patterns, every attribute", "anchors": ["src/vfbLib/ufo/info.py: VfbToUfoInfo", "src/vfbLib/ufo/builder.py: VfbToUfoBuilder.build"]}
{"id": "C79", "title": "TrueType values in the lib of the UFO", "statement": "public.truetype.instructions has format version '1' and, for each of the maxp numbers, the control values and the two programs, what the last entry says about it; it is missing exactly if the file says nothing about these values or only that all six maxp numbers are zero. Control values are the little-endian signed 16-bit numbers of the stored bytes, keyed by decimal indices. The numbers of the TrueType hinting are those of the last entry whose value is not the usual one (stem snap limit 68, zone ppm 48, dropout ppm 255; code ppm is always kept): a usual value does not replace an earlier one. User data and metrics class flags are those of the last entry.", "quantifier": "all lists of decompiled entries, all build options, all keys", "why_tests_cant": "ranges over all histories of entries and all stored byte strings", "anchors": ["src/vfbLib/ufo/info.py: VfbToUfoInfo.set_tt_info, set_tt_instructions, default_tt_lib", "src/vfbLib/ufo/builder.py: set_tt_cvt, set_tt_program, set_tt_pixel_snap, set_tt_zone_stop, set_tt_code_stop, set_tt_dropout, build"]}
{"id": "C80", "title": "Font info of a master", "statement": "The font info of the UFO of master k equals the font info of the font (C78) except for exactly these attributes, which come from the k-th PostScript info of the file: ascender, descender, xHeight, capHeight always; with PostScript hints also BlueScale, BlueShift, BlueFuzz, ForceBold (true iff non-zero) and the six zone and stem lists, each clipped to the number of values in its own counter entry (a negative number drops values at the end) and left at the default when that number is zero; and, unless minimal, the guidelines of the master if the file has any global guide. The result is unambiguous, and the info can be made exactly if the file has got a PostScript info for the master and the guidelines of the master can be converted.", "quantifier": "all files (lists of entries), all options, all masters", "why_tests_cant": "Fourteen attributes and six independent counters, repeated entries and any number of masters; the claim is also about every attribute that must not change.", "anchors": ["src/vfbLib/ufo/builder.py: get_master_info", "src/vfbLib/ufo/builder.py: build (cases blue_values_num … PostScriptInfo, GlobalGuides)"]}
{"id": "C81", "title": "Guidelines of a UFO master are the stored guides", "statement": "Converting guides to a UFO: the guidelines of a master are exactly the stored horizontal guides followed by the vertical ones, in order, none missing and none added. A horizontal guide gets (0, position in that master), a vertical one (position, 0). The angle is between 0 and 360 degrees and, up to the rounding to two decimals, equals the stored angle (plus 360 if negative) for a horizontal guide and 90 minus the stored angle for a vertical one. Colour and name are those of the last property whose index (from 1, negative ones from the end) denotes the guide, and absent if there is none. A stored colour n (< 2^24, blue in the high byte) becomes the text of red, green and blue as nearest four-decimal numbers with opacity 1, and different colours stay different; a green or blue part that is missing or not hexadecimal becomes 0. The conversion succeeds exactly if each guide has a position for the master and each property that is not beyond the last guide denotes an existing guide and has a hexadecimal red component.", "quantifier": "all lists of guides, all guide properties, all masters, all angles between -90 and 90 degrees, all 2^24 colours", "why_tests_cant": "The angle wraps and is rounded twice in binary floating point for every slope, the colour text has to be the nearest decimal and injective for 2^24 values, and any number of properties with any (also negative) index may address the guides.", "anchors": ["src/vfbLib/ufo/guides.py: get_master_guides, apply_guide_properties", "src/vfbLib/ufo/builder.py: get_master_info", "src/vfbLib/ufo/paths.py: _build_guides"]}
{"id": "C82", "title": "Interpolation compatibility of the masters of a glyph", "statement": "Converted to UFO, two masters of a glyph have got the same number of contours, and their outlines are compatible (contour by contour the same number of points, and point by point the same segment type, smooth flag and name) if and only if every closed contour whose last segment is a curve ends at its start point in both masters or in neither of them. (Known defect, also proved: a contour whose final curve meets the start point in one master only gives outlines with a different number of points, so that the UFOs cannot be interpolated although the masters in the VFB can.)", "quantifier": "all lists of multiple-master nodes, all point names, all pairs of masters", "why_tests_cant": "The start point of a contour is merged with the last point depending on the coordinates of each single master; that two masters can be interpolated is a relation between two runs for every outline.", "anchors": ["src/vfbLib/ufo/paths.py: _extract_contours", "src/vfbLib/ufo/paths.py: _flush_contour", "src/vfbLib/ufo/paths.py: _apply_closepath"]}
{"id": "C83", "title": "A glyph in an exported UFO is exactly the requested master of the source glyph", "statement": "When a glyph is extracted for master k of an UFO export, its advance width and height, code points, outline (contour by contour, point by point, with point names), components, anchors, guidelines, lib entries and mask are exactly those of master k of the source glyph, with nothing missing and nothing added. A component refers to the glyph at its index in the glyph order, with the offsets of master k and scales rounded to 15 decimals (integral scales and decimal scales with up to 15 digits are kept exactly; integral ones become integers). An anchor with per-master positions is at its position in master k. In minimal mode guidelines and mask are left out, without PostScript hints the hint item is absent. The TrueType program in the lib is the text of the commands, or base64 data that decodes to it. Extraction fails only if hints cannot be made, the glyph lacks a part of the master, or the program text is not ASCII although base64 is asked for. (Known defect, also proved: the note of the glyph never reaches the UFO.)", "quantifier": "all glyphs, masters, glyph orders, options and states of the point labels", "why_tests_cant": "The glyph has many optional parts of any size, each with its own number of masters; doubles for scales are 2^64 many; tests show single glyphs.", "anchors": ["src/vfbLib/ufo/paths.py: UfoMasterGlyph.build, _extract_master_anchors, _extract_master_contours, _extract_master_components, _extract_master_mask_metrics, _extract_master_guides, _finalize_lib", "src/vfbLib/ufo/glyph.py: VfbToUfoGlyph"]}
{"id": "C84", "title": "A conversion to UFO makes one complete, consistent UFO per master", "statement": "Converting a VFB to UFO gives one UFO for each master (as counted by the master names, missing ones being supplied). In every UFO each glyph is the requested master of a glyph of the file; glyph names are unique, the glyph order lists exactly the glyphs of the UFO, and (unless more than 255 glyphs have names beginning with the same text, or the last glyph repeats a name) there is exactly one glyph per glyph of the file, in file order. The UFOs of one conversion share features, groups, font lib, glyph names and all per-glyph data that does not depend on the master (code points, mark, user data, images, bitmaps, TrueType instructions and program, component bases, anchor names). An attribute of the font info is what the file says for that master, otherwise what its last relevant entry says, otherwise the default. TrueType stems and zones are those of the file's tables. The background layer holds exactly the glyphs with contours in their mask.", "quantifier": "all sequences of entries, all options, all masters", "why_tests_cant": "The conversion combines any number of entries in any order with any number of masters; consistency between the UFOs relates all runs of the master loop.", "anchors": ["src/vfbLib/ufo/builder.py: build, get_ufo_masters, get_ufo_master, build_tt_glyph_lib", "src/vfbLib/ufo/paths.py: UfoMasterGlyph"]}
{"id": "C85", "title": "Point names are shared by outlines, hints and TrueType programs of all UFOs", "statement": "Let a conversion to UFO succeed. Then every glyph has got one assignment of names to points, and no two points of a glyph have the same name. In the UFO of every master, the names of the points in the contours, the point names in the PostScript hint sets (for glyphs without components: the stems are exactly those of the hints and links in this master, the hint sets exactly those of the hint masks) and the point names in the TrueType program all come from this assignment; a point of a composite is called like the point of the base glyph followed by the number of the component, the two side bearings are called lsb and rsb. The TrueType program has got exactly one command for each TrueType instruction of the glyph, and its stems (and zones, if no table of zones comes after a glyph in the file) are called like those in the lib of the font. If no composite has got PostScript hints, or PostScript hints are not converted, the assignment is the same for all UFOs. (Known defect, also proved: if a composite is hinted, the first UFO may lack names of points of its base glyphs: the hint of the composite refers to a point name that is in the second UFO but not in the first.)", "quantifier": "every list of decoded entries, every option, every number of masters, glyphs, components and hints", "why_tests_cant": "Names are made lazily in an order that depends on all glyphs of the font, and the state is kept from one master to the next; tests compare a few fonts.", "anchors": ["src/vfbLib/ufo/builder.py:VfbToUfoBuilder.get_ufo_masters", "src/vfbLib/ufo/builder.py:VfbToUfoBuilder.build_tt_glyph_lib", "src/vfbLib/ufo/glyph.py:get_point_label", "src/vfbLib/ufo/paths.py:UfoMasterGlyph.build", "src/vfbLib/ufo/pshints.py:build_ps_glyph_hints", "src/vfbLib/ufo/tth.py:TTGlyphHints"]}
{"id": "C86", "title": "Interrupted and failed saves", "statement": "Vfb.write first empties the file and then only appends. At every moment of a save (completed, failed, or interrupted by a crash with any part of the data already on disk) the file holds its old contents or an initial part of what the complete save writes. Reading an initial part of a complete file never succeeds, except when the cut is one byte into an entry whose id ends in the byte 02 (of the known ids only font_name, 1026) or within the end entry. What is left by a save that raised an exception can never be read as a font. (Known defects, also proved: the old contents are destroyed before anything is compiled, so a failed save leaves an empty or partial file; a file cut one byte into font_name is read without error, with all following entries missing.)", "quantifier": "all fonts, all old file contents, all crash points (number of file operations issued and number of bytes that reached the disk), all entry tables, all settings of the reading object", "why_tests_cant": "there are as many crash points as bytes in the file, and the two cuts that are misread are single bytes that no sample of truncated files is likely to hit", "anchors": ["src/vfbLib/vfb/vfb.py:Vfb.write", "src/vfbLib/vfb/vfb.py:Vfb.write_bytes", "src/vfbLib/vfb/vfb.py:Vfb.read_stream", "src/vfbLib/vfb/entry.py:VfbEntry.read"]}
{"id": "C87", "title": "The yuri tool decodes what it encodes", "statement": "yuri -e succeeds exactly if all numbers are in the range of the chosen mode, and what it prints can be given to yuri (same mode), divided into arguments in any way, and gives the same numbers in the same order. Decoding prints exactly the numbers whose Type 1 encodings (short or long) make up the text, ends for every text, and raises ValueError at a byte that cannot begin a number. (Known defects, also proved: --long has no effect; a zero byte ends the output silently and everything after it is dropped.)", "quantifier": "all lists of integers, both modes, all texts and all divisions of the text into command line arguments", "why_tests_cant": "the range is 2^32 numbers per position and the text can be divided anywhere, also inside a byte", "anchors": ["src/vfbLib/value.py:yuri", "src/vfbLib/parsers/value.py:read_value", "src/vfbLib/compilers/value.py:write_value", "src/vfbLib/helpers.py:deHexStr"]}
{"id": "C88", "title": "The JSON export holds the whole font", "statement": "save_vfb_json of a readable file writes exactly one item per entry, in the order of the file, with the name of the entry in the table (or its number) as key and the data its payload decompiles to; it succeeds exactly if every entry can be decompiled. The key determines the id of the entry. With no_decompile the export never fails and the binary data of all entries can be recovered from the JSON (the three entries that are always decompiled: their data). A file that cannot be read or is cut off is not exported (except for the cuts of C86). With only_header the rest of the file need not be readable. With roundtrip the JSON has the same keys in the same order with equal data, for every font whose entries survive compiling (C15); entries with unknown ids are left alone.", "quantifier": "all files, all entry tables, all options (only_header, unicode_strings, no_decompile, roundtrip), all data after the end entry; every byte string that is accepted as a file, whatever the form of its headers", "why_tests_cant": "ranges over all fonts; that no entry is dropped, reordered or confused with another cannot be concluded from sample files", "anchors": ["src/vfbLib/json.py:save_vfb_json", "src/vfbLib/vfb/vfb.py:Vfb.as_dict", "src/vfbLib/vfb/entry.py:VfbEntry.as_dict", "src/vfbLib/vfb/entry.py:VfbEntry.key", "src/vfbLib/vfb/header.py:VfbHeader.as_dict"]}
{"id": "C89", "title": "Which files vfb3ufo writes", "statement": "If the input cannot be read, decompiled or converted, vfb3ufo writes nothing. Otherwise it writes the UFOs of all masters (name.ufo, name-1.ufo, ...; .ufoz with -z, .json with -j) and then, if the font has axes, name.designspace, in the folder of the input or of --path, one after the other up to the first one where a file exists already; it succeeds exactly if there is none, and then all UFOs and the designspace of the conversion are on disk, at different paths, and all other files are unchanged. Without -fo and without -j no file that existed before is changed at any moment of the run, however it ends; with any options, only files in the output folder with the extensions .ufo, .ufoz, .json or .designspace of the right kind are ever written. (Known defects, also proved: -j overwrites existing files without -fo; the positional output path and --ttx have no effect; the UFOs written before a blocked file stay on disk.)", "quantifier": "all command lines, all input files and all contents of the file system, every moment of the run (every prefix of the writes)", "why_tests_cant": "that nothing else is ever overwritten ranges over all file systems, all names and all interruption points", "anchors": ["src/vfbLib/cmdline.py:vfb2ufo", "src/vfbLib/ufo/builder.py:VfbToUfoBuilder.write", "src/vfbLib/ufo/builder.py:VfbToUfoBuilder.get_ufos_designspace", "src/vfbLib/ufo/builder.py:VfbToUfoBuilder.get_master_path"]}
{"id": "C90", "title": "From the bytes of a VFB file to the UFOs on disk", "statement": "Let a file at the path of vfb3ufo's argument be a VFB file (any header version, any entries up to the end entry, any bytes after it) whose settings can be read, and let the run of vfb3ufo end without an error, with any options. Then: (1) the entries that are converted are exactly those of the file, in order, without the two encodings, each with the data that the parser of its id reads from its payload; reading succeeds exactly if all these payloads can be parsed, and their data are of the types that the converter expects; (2) there is one UFO file per master, and its content is the conversion of these data with the options of the command line; (3) if the glyphs have different names, each UFO has exactly these glyphs in this order, each being, for the master of the UFO, what its Glyph payload and the entries after it say; (4) unless -k is used while groups are moved to the features, the kerning value that the UFO specification assigns to each pair of glyphs is that which FontLab's rules assign by the file, if names do not look like UFO kerning groups, pairs refer to glyphs of the file, and no key glyph is in two kerning classes of a side; (5) if there are axes, the designspace is on disk with one source per stated master, whose file name is that of the UFO of the same number in the same folder, which is on disk, and whose location is the stated one; (6) with -m there is no background layer, with -nops there are no PostScript hints, TrueType hints are text unless base64 is asked for; (7) the attributes of the font info are those that the last entry that determines them says, or the defaults.", "quantifier": "all VFB files (headers, entries, trailing bytes), all options, all contents of the file system, all masters and glyphs; every byte string that is accepted as a file, whatever the form of its headers", "why_tests_cant": "The claim relates the bytes of every possible file to the files on disk for every combination of options; tests check some fonts.", "anchors": ["src/vfbLib/cmdline.py: vfb2ufo", "src/vfbLib/vfb/vfb.py: Vfb.read, Vfb.decompile", "src/vfbLib/ufo/builder.py: VfbToUfoBuilder", "src/vfbLib/parsers/*"]}
{"id": "C91", "title": "Histories of calls on the glyph objects of a font", "statement": "For every history of calls on the objects for one glyph (the VfbGlyph, and any number of VfbGlyphMaster objects obtained for any masters): calls that read (draw, drawPoints, len, name, getting objects, setting master_index) never change the glyph; draw and len always show the glyph as it is now, exactly as unused objects would; the first drawPoints of an object draws the outline of its master as it is at this time (contours and components with the names of their glyphs) and fails exactly if the entry lacks metrics, points, flags or component values for this master; after deleting the outline and drawing contours into the first master, len is the number of contours; drawing contours of lines and quadratic curves into the first master succeeds, and a cubic curve or a further move point raises ValueError and leaves the glyph as it is. (Known defects, also proved: every later drawPoints of the object draws what was there at its first drawPoints, whatever has been changed since; if the first drawPoints fails, later ones succeed and draw what had been made before the failure; name is None for ever if it is asked for before the first drawPoints, and else for ever the name at the first drawing; drawPoints of a VfbGlyph ignores master_index; what is drawn into or deleted from another master than the first is not seen by any object; as long as no master has been cleared, the pen of another master than the first raises IndexError.)", "quantifier": "all glyph entries, all numbers of masters, all histories (any length and order) of calls on any number of objects", "why_tests_cant": "the caches make the outcome depend on the whole history of calls; tests try a few sequences", "anchors": ["src/vfbLib/vfb/glyph.py:VfbGlyph", "src/vfbLib/vfb/glyph.py:VfbGlyphMaster", "src/vfbLib/vfb/vfb.py:Vfb.getGlyphMaster", "src/vfbLib/vfb/vfb.py:VfbMaster", "src/vfbLib/ufo/paths.py:UfoMasterGlyph.build"]}
{"id": "C92", "title": "The command vfbcu2qu", "statement": "For every file, every option and every state of the disk: the path for the converted font is the name of the input without its extension and '.qu.vfb' in the folder of the input, or '.vfb' in the folder given with --path; an existing file is never replaced unless -fo is given, instead the command fails, and nothing but this one file is ever written, with the bytes of the font. For every readable VFB file the command fails if an entry other than Links cannot be parsed, and otherwise says that the number of masters is unsupported if it is less than one. (Known defects, also proved: in all other cases it says that the file was not modified: no file is ever written, whatever the font, because looking at the glyphs of the font empties them; the output path on the command line has no effect.)", "quantifier": "all files, options and contents of the disk; all conversion functions that leave glyphs without contours alone; every byte string that is accepted as a file, whatever the form of its headers", "why_tests_cant": "The claim is about every font and every state of the disk.", "anchors": ["src/vfbLib/cu2qu.py: vfbcu2qu", "src/vfbLib/vfb/vfb.py: Vfb.keys, Vfb.get_masters", "src/vfbLib/vfb/glyph.py: VfbGlyph.__init__"]}
{"id": "C93", "title": "The units per em of a font", "statement": "As long as vfb.info.unitsPerEm has not been answered, the answer is, whatever has happened to the font before, the value of the first entry of this kind that the font has now, and 0 if there is none; the question changes nothing but that this entry is decompiled. For every readable file the value is the 16-bit number in the first such entry of the file. If this entry cannot be parsed, the exception is raised, nothing changes (except that errors are noted), and later questions try again. (Known defect, also proved: after the first answer, all later answers are the same, even if another file has been read or the entry has been changed.)", "quantifier": "all fonts, all files, all histories of changes and questions", "why_tests_cant": "The value is cached, so it depends on the history of the object.", "anchors": ["src/vfbLib/vfb/info.py: VfbInfo.unitsPerEm"]}
{"id": "C94", "title": "TrueType instructions as text", "statement": "The text for a list of instructions (none of which contains a newline) is an empty line followed by one line for each instruction, in the same order, unchanged but for two spaces for each block that is open there: blocks begun by earlier lines less blocks ended by earlier lines and the line itself, not below zero. The instructions can be recovered by dropping the indentation, so different instructions have different texts, if no instruction begins with a space. Binary instructions have the text of their disassembly, a string has that of its lines, anything else is a TypeError.", "quantifier": "all lists of instructions, any nesting (balanced or not), any patterns for the beginning and the end of blocks", "why_tests_cant": "It must hold for every program and nesting.", "anchors": ["src/vfbLib/ufo/instructions.py: format_assembly"]}
{"id": "C95", "title": "Comparing two fonts with diffvfb", "statement": "For every two readable VFB files in which the number of masters precedes the first kerning pair of a glyph, diffvfb without --html fails exactly if the JSON export (C88) of one of them does, and otherwise prints the unified difference of the two exported documents. If different documents have different JSON texts, nothing is printed exactly if the header versions are the same and the entries of the files have, one by one, the same ids and the same decompiled data; bytes after the end entry do not matter. Nothing is written without --html; with it nothing is printed and one file is written if both fonts can be decompiled. (Known defects, also proved: each file is read twice, and if a kerning pair precedes the number of masters the second reading gives other entries than the file has; with --html the program hands the texts of whole lists to difflib instead of lists of lines, and replaces an existing file.)", "quantifier": "all pairs of readable files with any trailing bytes, all options, all states of the disk; every two byte strings that are accepted as files, whatever the form of their headers", "why_tests_cant": "The claim is about all pairs of files.", "anchors": ["src/vfbLib/diff.py: diffvfb", "src/vfbLib/vfb/vfb.py: Vfb.read, Vfb.as_dict"]}
{"id": "C96", "title": "Exactly which fonts can be converted", "statement": "For every font with data of the right types, the TrueType zones before the glyphs, and components that do not nest deeper than Python's recursion limit, the conversion to UFO succeeds exactly if: each glyph has a name, metrics and nodes, and no entry about a glyph precedes the first glyph; TrueType stems have consecutive numbers with sizes, zones have both sides, and ppms and deltas refer to stems and zones that exist; axis mappings come after the number of mappings of all axes and have finite coordinates; no OpenType class has two colons; the font info can be converted (C78); kerning refers to glyphs that exist and has a value for each master; there is a PostScript info and a position of each global guide for each master; TrueType instructions are complete and refer to zones and stems that exist, with ASCII names if base64 is asked for; and each glyph has outlines, metrics, components and hints for each master, with links to nodes that exist. The command vfb3ufo succeeds on a readable file exactly if this is the case, a font with axes has locations for all masters and instances (C72), and nothing is at the paths of the files (or overwriting is allowed).", "quantifier": "all lists of decompiled entries meeting the stated conditions, all options; all readable files and states of the disk for the command", "why_tests_cant": "The claim is that nothing else can make a conversion fail, for all fonts.", "anchors": ["src/vfbLib/ufo/builder.py: VfbToUfoBuilder.build, get_ufo_masters, get_ufos_designspace, write", "src/vfbLib/ufo/glyph.py", "src/vfbLib/ufo/paths.py: UfoMasterGlyph.build", "src/vfbLib/ufo/tth.py", "src/vfbLib/ufo/pshints.py", "src/vfbLib/cmdline.py: vfb2ufo"]}
{"id": "C97", "title": "vfb2tth from file to file: exactly when it succeeds, what it writes and what it depends on", "statement": "`vfb2tth` writes its output next to the input (or into the folder given with --path) under the input's stem plus `.tth.` plus the format, never over the input. For any disk it ends in one of three ways: an exception and no file changed; an exception of the serialiser, with the output file left empty; or success, where only the output file changed and holds the serialised data. For every readable VFB file it succeeds if and only if (a) every entry it looks at can be decompiled, (b) there are TrueType stems, zones and zone deltas (possibly empty), (c) the table for one pixel is empty, (d) stem numbers in ppm tables and zone numbers in deltas exist, (e) every glyph with instructions has a name and comes after the stems and zones that its instructions refer to, each zone being there and each link having a stem in its direction. Instructions read from a file always have all parameters of their commands. The output depends only on the entries of the eleven kinds that are looked at plus the program version and the number of masters; other entries do not matter, even if they cannot be parsed. Any format except toml and yaml is written as JSON. (Known defects, also proved: the message about decompilation errors is unreachable; a font without zone deltas, or with any one-pixel table, cannot be exported.)", "quantifier": "all files, disks, command lines, serialisers, VFB files with any entries; every byte string that is accepted as a file, whatever the form of its headers", "why_tests_cant": "The success condition is an equivalence over all fonts, including order of entries and references between tables; independence ranges over arbitrary other entries.", "anchors": ["src/vfbLib/tth.py: vfb2tth, extract_truetype_hinting, extract_glyph_hints, merge_stem_information, merge_zone_information", "src/vfbLib/vfb/vfb.py: Vfb", "src/vfbLib/ufo/tth.py: TTGlyphHints"]}
{"id": "C98", "title": "vfb2json from file to file: exactly when it succeeds and what is on disk afterwards", "statement": "`vfb2json` writes to the input's stem plus `.vfb.json`, in the input's folder or the one given with --path, never over the input; an existing output is overwritten. It succeeds if and only if the input exists, reading and decompiling (and, with -r, compiling) succeed and the dictionary can be serialised; then the output holds exactly the serialised dictionary and all other files are unchanged. When the input is missing or cannot be decompiled nothing is written; when serialisation fails the output is left empty. Running it twice gives the same as running it once. Without options a readable file gives one item per entry in file order, and success is equivalent to all entries being decompilable. (Known defect, also proved: --minimal has no effect.)", "quantifier": "all disks, command lines, files and serialisers; every byte string that is accepted as a file, whatever the form of its headers", "why_tests_cant": "The claims range over every file content, every entry and every failure point.", "anchors": ["src/vfbLib/cmdline.py: vfb2json", "src/vfbLib/json.py: save_vfb_json, write_vfb_json", "src/vfbLib/vfb/vfb.py: Vfb.as_dict"]}
{"id": "C99", "title": "Adobe hints of format 1 are converted set by set", "statement": "For every XML text of any depth and order of elements, update_adobe_hinting returns one record per hint set, in document order, with the name of its point and one text per stem up to the next hint set, in their order: the tag and the two edges of the stem with a width that is not negative, except for ghost hints (widths -20, -21), which are kept as they are. Stems before the first hint set do not count; without hint sets the result is empty. It fails exactly if the text is no XML, the bytes are no text (UnicodeDecodeError), a hint set has no pointTag (KeyError), or a stem in a hint set has no pos or width (KeyError) or one that is no whole number (ValueError). Bytes are converted as the text they encode, anything else is returned unchanged, so converting twice is the same as converting once. (Known defect, also proved: if a hintSetList starts after a hint set, the hint sets before the last one before it are dropped.)", "quantifier": "all XML trees, all texts, bytes and other data, all XML parsers", "why_tests_cant": "The two tests of the project convert one empty and one regular document; the claim is about every tree, every order of elements and every kind of wrong attribute.", "anchors": ["src/vfbLib/ufo/pshints.py: update_adobe_hinting", "src/vfbLib/ufo/pshints.py: normalize_hint"]}
{"id": "C100", "title": "A font put together through the API is written and read back", "statement": "A font to which the user has added entries with add_entry, in any number and order, each holding either raw bytes (of any id, known or not) or data of its class that are in range (spelled out for each of the 50 or so classes of entries), with a header and an end entry at the end, and with attributes (number of masters, TrueType stem counts, platform) that agree with the entries: writing it succeeds, and reading the file into a new font gives the same header and attributes and, entry by entry in the same order, the same id and the same data (raw bytes unchanged; other data equal after decompiling). (Known defects, also proved: a new font has no header, so that it cannot be written (TypeError) until one is set; a font without end entry is written without complaint, but reading the file never ends; if the number of masters is not set, anchors lose all their positions without complaint.)", "quantifier": "all fonts with any number of entries of any class, all data in range", "why_tests_cant": "The composition of compilers, entry headers, file header, read loop and parsers must hold for any combination of entries with any data; tests build a handful of single entries.", "anchors": ["src/vfbLib/vfb/vfb.py: Vfb.add_entry, Vfb.write, Vfb.read", "src/vfbLib/vfb/entry.py: VfbEntry", "src/vfbLib/constants.py: parser_classes"]}
{"id": "C101", "title": "Changing some entries of a font leaves all the others alone", "statement": "Whatever byte string of less than 1 GB is accepted as a file: after the user has replaced the data of some entries by data in range, has decompiled others (whose data are not among the losses of C15), and has left the rest alone, writing the font and reading the result succeeds and gives the same header and settings; entries that were left alone are exactly as they were, at the same positions, whether or not they could be decompiled; all others decompile to equal data. (New data of the FL version, master count and TrueType stems entries keep the platform, the number of masters and the numbers of stems; the version, the owner, and the names, values and ppms of the stems may change. Every new payload is less than 4 GB.) Entries may also be inserted anywhere before the end and deleted (except the end entry and those three): the result of writing and reading again has, in the order of the list, an entry with equal data for each entry, and the very same entry wherever it holds raw bytes.", "quantifier": "all byte strings accepted as files, all choices of entries and all new data in range", "why_tests_cant": "Ranges over every file, including ones this library would not write, and every subset of changed entries.", "anchors": ["src/vfbLib/vfb/vfb.py: Vfb.read, Vfb.write", "src/vfbLib/vfb/entry.py: VfbEntry.data, VfbEntry.decompile, VfbEntry.compile"]}
{"id": "C102", "title": "A font as a mapping from names to glyphs", "statement": "For every font: the first lookup (`name in font`, `font[name]`, keys(), items(), on the font or on a VfbMaster of it) makes one object per glyph entry, in the order of the file, under different keys; each object refers to the last Links entry and the last Glyph Hinting Options entry between its glyph entry and the next one (or to none), and the font's ps_hinting_options is the last such entry of the file. `name in font` is true exactly for the keys, `font[name]` gives the object or raises KeyError, `master[name]` gives the same object with the index of the master, glyph_order is the list of keys; get_masters gives one master per index. From then on every history of lookups gets the same answers. If links or hinting options cannot be decompiled, the first lookup raises. (Known defects, also proved: the keys are not the glyph names but '', '#1', '#2', …; glyph_order is empty before the first lookup; after a failed lookup the later ones succeed with the glyphs before the failure only; after reading another file all glyphs found belong to the old one.)", "quantifier": "all fonts with any entries in any order, all histories of lookups, readings and decompilations", "why_tests_cant": "Which entry belongs to which glyph must hold for any order and number of entries, and the cached objects make every answer depend on the history.", "anchors": ["src/vfbLib/vfb/vfb.py: Vfb._decompile_glyphs, Vfb.__contains__, Vfb.__getitem__, Vfb.keys, Vfb.items, Vfb.getGlyphMaster, Vfb.get_masters, VfbMaster", "src/vfbLib/vfb/glyph.py: VfbGlyph.__init__, VfbGlyphMaster.__init__"]}
{"id": "C103", "title": "Editing glyphs through the API, saving and reopening", "statement": "For every byte string below 800 MB that Vfb.read_bytes accepts (no dropped keys, at least one master): if the glyphs are looked up without an exception and then some of them are drawn anew, in all masters one after the other, by master[name].clearContours(), getPointPen() and the calls of the pen, with TrueType contours that are compatible between the masters (coordinates up to a billion, less than 100 million points), then no call raises an exception, the font can be written, and the written file is read again with the same header, settings and number of entries. Each glyph that was drawn has, in each master, exactly the contours that were drawn into that master; Links and the hinting options are decompiled to the same data, and every other entry that is not a glyph is identical. (Known defects, also proved: the glyphs that were drawn lose their name, metrics, hints, guides, components, kerning, imported data and instructions, and all glyphs that were not drawn lose these and their contours, because looking up any glyph replaces all glyph entries by empty glyphs.)", "quantifier": "all accepted files, all sets of glyphs and contours, all numbers of masters", "why_tests_cant": "The statement is about every accepted file and every set of contours, and about the composition of lookup, pen, merging, compiling, writing and reading; a test can only follow single fonts through this chain.", "anchors": ["src/vfbLib/vfb/vfb.py: Vfb.__getitem__, Vfb._decompile_glyphs, Vfb.write, VfbMaster.__getitem__", "src/vfbLib/vfb/glyph.py: VfbGlyphMaster.clearContours, VfbGlyphMaster.getPointPen, VfbGlyph.__init__", "src/vfbLib/vfb/pens.py: VfbGlyphPointPen", "src/vfbLib/vfb/entry.py: VfbEntry.merge_masters_data, VfbEntry.compile", "src/vfbLib/compilers/glyph.py: GlyphCompiler.merge"]}
{"id": "C104", "title": "What the conversion to UFO depends on", "statement": "The UFOs and the designspace that a list of decompiled entries is converted to depend on four groups of entries only: the glyphs with the entries that belong to them and the TrueType stems and zones; the axes, masters, PostScript info and global guides; the classes, their flags and the features; the font info, user data and TrueType tables. Within these, the ids 1500, 1501, 1046, 1133, 2020, 2010, 2027, and in minimal mode also 1294, 1295, 2025, 2013, 2031, 2007, 2012, 2009, 2017, are ignored. Each group counts in its own order only: all other entries can be added, changed and removed, and font-level entries can stand anywhere between the glyphs, without changing the result. For the command: if two readable files, all of whose entries can be decompiled, have the same entries 10, 1503 and 1269 and byte for byte the same entries in the four groups, then vfb3ufo does exactly the same on both (same outcome, same files written, in the same order), whatever the header version, the other entries and the bytes after the end of the font are. The same holds for any two byte strings that reading accepts with the same settings (number of masters, stem counts, encoding, platform), in whatever form they are laid out.", "quantifier": "all lists of entries, all pairs of files, all options, all contents of the disk", "why_tests_cant": "It is a statement about pairs of inputs and about everything that could be in unused entries and about every interleaving of the groups.", "anchors": ["src/vfbLib/ufo/builder.py: VfbToUfoBuilder.build", "src/vfbLib/cmdline.py: vfb2ufo"]}
{"id": "C105", "title": "The encoding of texts, and the option for Unicode strings", "statement": "After a file has been read, the attribute encoding of the font is \"utf-8\" if Unicode strings were demanded or the last FL version entry says that the file comes from a Mac, \"cp1252\" if it says anything else, and as before if there is none. (Known defects, also proved: this attribute and the option have no effect at all. Whatever calls are made one after the other - reading files, decompiling, compiling, writing, listing the glyph names, making the dictionary for JSON - two font objects that differ only in these settings give the same answers, raise the same exceptions and write the same bytes; vfb2json and vfb3ufo write the same with and without the option. So texts are Windows-1252 always: the bytes of a text entry that are the UTF-8 form of a text without NUL at the ends are decompiled as this text exactly if it is pure ASCII.)", "quantifier": "all files, settings, histories of calls; all texts", "why_tests_cant": "A test compares the option on a few files; the claim is about every file and every history of calls.", "anchors": ["src/vfbLib/vfb/vfb.py: Vfb.read_stream, Vfb.encoding, Vfb.force_unicode_strings", "src/vfbLib/vfb/entry.py: VfbEntry.id, VfbEntry.decompile", "src/vfbLib/parsers/base.py: BaseParser.__init__, StreamReader.read_str_all"]}
{"id": "C106", "title": "Ids of TrueType instructions", "statement": "In each UFO of a conversion exactly the glyphs with TrueType instructions get an id, made from the glyph's advance width and its drawing in this very UFO: contour by contour the segment types and coordinates of the points, then each component as the drawing of its base glyph in the same UFO (with its components in turn) and the transformation. The drawing is determined by the UFO, and the step succeeds for all fonts whose components do not nest deeper than the recursion limit (so C96 is complete). Two glyphs, of any UFOs, have the same id exactly if they have the same width and the same drawing, if coordinates have at most six digits, scales are finite and SHA-512 does not collide; names and smoothness of points do not matter. (Known defects, also proved: coordinates of more than six digits are cut off, so different outlines may share an id; and if a glyph with instructions contains, directly or through components, a glyph that contains itself, the whole conversion fails at this step with any recursion limit.)", "quantifier": "all fonts, options, masters, glyphs, nestings of components; all pairs of glyphs", "why_tests_cant": "Tests compare a few hashes; that an id is that of the right master and tells all outlines apart is a statement about all pairs of outlines.", "anchors": ["src/vfbLib/ufo/builder.py: VfbToUfoBuilder.get_ufo_master (lines 811-821)", "src/vfbLib/ufo/paths.py: UfoMasterGlyph.build, _finalize_lib", "src/vfbLib/ufo/glyph.py: VfbToUfoGlyph.set_instructions"]}
{"id": "C107", "title": "The UFO of a master depends on that master only", "statement": "Take two fonts that have the same entries in the same order, and that differ at most in the values stored for other masters than master k: the points of nodes, glyph metrics, hints, guides, scales and offsets of components, kerning values, anchor positions, nodes and metrics of masks, global guides, PostScript infos, and the names and locations of the masters. (Everything that is stored once for all masters is equal: names, numbers and kinds of nodes, hint replacement, TrueType instructions, classes, features, font info.) If both fonts can be converted, they give the same number of UFOs, and the UFO of master k is the same in all its parts, including the names of points, which are made up while other masters are converted. The same holds for the files that the command writes from two VFB files; in particular files that differ only in the bytes of master names and locations give the same UFOs.", "quantifier": "all pairs of fonts related in this way, all masters k, all options", "why_tests_cant": "It is a statement about all pairs of fonts: that no value of another master leaks into a UFO through shared state (labels, names, sorting, merged classes) cannot be established by converting some fonts.", "anchors": ["src/vfbLib/ufo/builder.py: VfbToUfoBuilder.get_ufo_masters, get_ufo_master, get_master_info", "src/vfbLib/ufo/paths.py: UfoMasterGlyph.build", "src/vfbLib/ufo/kerning.py: UfoKerning.get_master_kerning", "src/vfbLib/ufo/pshints.py: build_ps_glyph_hints", "src/vfbLib/ufo/glyph.py: VfbToUfoGlyph.get_point_label"]}
{"id": "C108", "title": "Saving a font again does not change what the tools make of it", "statement": "Let a VFB file (whatever bytes are accepted as a file: any version, any header length, any form of entry headers, any bytes after the end entry; any entries except FontLab 3 kerning pairs) be read and decompiled, and let what is written for the data of each entry be parsed as the same data. (That is so for every entry of a known id whose data are not among the exceptions of C15; for TrueType info and zone deltas also the order of the items must be the one in which they are written.) Then the font can be written, and for the new file: vfb3ufo, with any options on any disk, ends in the same way and writes the same files in the same order; the document that vfb2json exports is the same, unless binary data are exported; vfb2tth writes the same text or fails for both; diffvfb prints no difference between the two files.", "quantifier": "all such files, all options, disks, serialisers and values of the option for Unicode strings while saving", "why_tests_cant": "The saved file has other bytes than the original. That none of the four tools can tell them apart, for any font, needs the composition of the round trip of every entry type with the complete behaviour of the tools.", "anchors": ["src/vfbLib/vfb/vfb.py: Vfb.read, Vfb.decompile, Vfb.write", "src/vfbLib/cmdline.py: vfb2ufo, vfb2json", "src/vfbLib/tth.py: vfb2tth", "src/vfbLib/diff.py: diffvfb"]}
{"id": "C109", "title": "Drawing into a glyph with a segment pen", "statement": "Contours of lines and quadratic curves, drawn with the pen of getPen(), are added to the contours of the glyph and come out of drawPoints in every master, after those that were there, with exactly the path that was drawn: closePath adds a line to the start unless the last segment ends there, and a closed contour with nothing but one point is a single point; whatever the pen guesses about smooth points, none is stored. What draw() of one glyph draws into the pen of another is a copy of its contours and components in every master, except that a line of no length at the end of a closed contour is left out. A contour with a cubic curve raises ValueError when it is closed or ended and leaves the glyph as it was, unless the cubic curve closes the contour at its start. A moveTo before the end of a contour discards what was drawn of it; segments and ends of contours without a moveTo, and components within a contour, raise an error and leave the glyph as it was. (Known defect, also proved: a cubic curve that is the last segment of a closed contour and ends where the contour begins is accepted and stored as a quadratic curve with the same control points.)", "quantifier": "all sequences of contours with whole-number coordinates, all numbers of masters, all previous contents of the glyph, all ways of guessing smooth points; for copies: glyphs of quadratic contours that end on the curve, in fonts without two glyphs of the same name", "why_tests_cant": "all contours and sequences of calls; the repository marks getPen as untested", "anchors": ["src/vfbLib/vfb/glyph.py:VfbGlyph.getPen", "src/vfbLib/vfb/glyph.py:VfbGlyphMaster.getPen", "src/vfbLib/vfb/pens.py:VfbGlyphPointPen", "src/vfbLib/vfb/glyph.py:VfbGlyph.draw"]}
