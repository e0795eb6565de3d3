{"id": "C01", "title": "Writing a sector is read back exactly and touches nothing else", "statement": "If WriteSector(image,t,s,data) returns nil then ReadSector(image,t,s) returns data, the image keeps its length, and every byte outside the 256 bytes starting at 4096*t+256*s is unchanged; in particular every other track/sector of a 16-sector track reads as before. If it returns an error the image is unchanged.", "quantifier": "every image, every track and sector byte, every data slice, every other track/sector", "why_tests_cant": "The frame condition ranges over all bytes of all images; tests check one sector on one disk.", "anchors": ["disk/marshal.go:WriteSector", "disk/marshal.go:ReadSector"]}
{"id": "C02", "title": "ReadSector is total and exact", "statement": "ReadSector returns an error exactly when 4096*t+256*s+256 exceeds the image length, never panics, and otherwise returns exactly the 256 image bytes starting at 4096*t+256*s.", "quantifier": "every image length, every track byte and every sector byte (including sectors >= 16)", "why_tests_cant": "All 65536 track/sector pairs against all image lengths cannot be enumerated by tests.", "anchors": ["disk/marshal.go:ReadSector"]}
{"id": "C03", "title": "Swizzle permutes whole sectors inside their track", "statement": "Whenever Swizzle(image, order) succeeds, the result has the same length and, for every track t<35 and sector s<16, sector order[s] of track t of the result is sector s of track t of the input; no byte is lost or duplicated.", "quantifier": "every image and every sector order accepted", "why_tests_cant": "16! orders times all images.", "anchors": ["disk/open.go:Swizzle", "disk/open.go:validateOrder"]}
{"id": "C04", "title": "Physical-to-logical and logical-to-physical orders undo each other", "statement": "The DOS and ProDOS orders are the skewings of the Disk II format (sector s of a track stands at physical position -2s mod 15 for DOS and 2s mod 15 for ProDOS, sector 15 at 15). For each named order (do, po, raw), swizzling by LogicalToPhysicalByName and then by PhysicalToLogicalByName of the same name gives back the original image, and the other way round.", "quantifier": "every floppy image and every named order", "why_tests_cant": "Must hold for the content of every image, not for the test disks.", "anchors": ["disk/disk.go:LogicalToPhysicalByName", "disk/disk.go:PhysicalToLogicalByName", "disk/open.go:Swizzle"]}
{"id": "C05", "title": "Swizzle accepts exactly floppy-sized images and true permutations", "statement": "Swizzle succeeds if and only if the image is 143360 bytes long and the order is a permutation of 0..15; otherwise it returns an error, and it never panics. (The doc comment additionally promises that a nil order leaves the image unchanged.)", "quantifier": "every byte slice and every int slice", "why_tests_cant": "Unbounded space of orders, lengths and entries.", "anchors": ["disk/open.go:Swizzle", "disk/open.go:validateOrder"]}
{"id": "C06", "title": "Opening an image and writing it back unmodified reproduces the file", "statement": "If OpenImage(file bytes, name, order, system) succeeds with an operator and a disk order, then WriteBack of that untouched operator with that order writes exactly the original file bytes, whichever system and order were chosen or guessed.", "quantifier": "every image of every accepted size, every filename, order, system and list of registered systems", "why_tests_cant": "Composition of four permutations depending on guessed order and system, over all image contents.", "anchors": ["disk/open.go:OpenImage", "disk/open.go:openDoOrPo", "disk/open.go:openHDV", "disk/open.go:WriteBack"]}
{"id": "C07", "title": "Image opening picks the first matching order/system, and an explicit choice is obeyed", "statement": "With auto detection OpenImage returns the first pair, in candidate-order-major order, whose system recognises and opens the correspondingly reordered bytes; with an explicit order and system it returns that order and system (or an error) without probing; the returned order is always one of the candidates and the operator one of the requested systems.", "quantifier": "every image, filename, order, system and factory list", "why_tests_cant": "Detection depends on the full image content.", "anchors": ["disk/open.go:openDoOrPo"]}
{"id": "C08", "title": "Images of the wrong size or kind are refused", "statement": "OpenImage succeeds only for 143360-byte images, or for .hdv files whose size is a multiple of 512 and at most 32 MiB opened as po/prodos; 13-sector images and all other sizes always give an error.", "quantifier": "every byte slice, filename, order and system", "why_tests_cant": "All sizes and names.", "anchors": ["disk/open.go:OpenImage", "disk/open.go:openHDV"]}
{"id": "C09", "title": "Reordering an image there and back restores it", "statement": "The reorder command's transformation from order A to order B followed by the one from B to A is the identity on every floppy image; each transformation permutes whole sectors inside a track, from do to po sending sector s to 15-s for 0<s<15 and leaving 0 and 15 in place.", "quantifier": "every floppy image and both directions", "why_tests_cant": "All image contents.", "anchors": ["cmd/reorder.go:ReorderCmd.Run", "disk/open.go:Swizzle"]}
{"id": "C10", "title": "reorder always converts between two different concrete orders", "statement": "With order flags drawn from auto/do/po, the orders used by reorder are either an error or exactly one of the pairs (do,po), (po,do); an explicit flag is always honoured; without flags the choice agrees with the file extensions, and it errors when the extensions do not determine it.", "quantifier": "every pair of filenames and every combination of flags", "why_tests_cant": "All filenames.", "anchors": ["cmd/reorder.go:getOrders", "cmd/reorder.go:oppositeOrder", "disk/open.go:OrderFromFilename"]}
{"id": "C11", "title": "DOS 3.3 sectors survive load/store byte for byte", "statement": "For the VTOC, catalog and track/sector-list sectors, decoding any 256-byte sector and encoding it again gives the same 256 bytes; any other length is an error; no panic.", "quantifier": "every 256-byte sector", "why_tests_cant": "256^256 sectors; the tests try one random sector.", "anchors": ["dos3/dos3.go:VTOC", "dos3/dos3.go:CatalogSector", "dos3/dos3.go:TrackSectorList", "dos3/dos3.go:FileDesc"]}
{"id": "C12", "title": "DOS 3.3 structures survive store/load field for field", "statement": "For every value of VTOC, CatalogSector, FileDesc and TrackSectorList, encoding and decoding gives back the same value (the track/sector location fields are the ones set by the unmarshaller), and encoding always produces exactly 256 (35) bytes.", "quantifier": "every value of the structures", "why_tests_cant": "All field values.", "anchors": ["dos3/dos3.go:VTOC.ToSector", "dos3/dos3.go:CatalogSector.ToSector", "dos3/dos3.go:TrackSectorList.ToSector", "dos3/dos3.go:FileDesc.ToBytes"]}
{"id": "C13", "title": "The DOS free-sector bitmap is read bit-exactly", "statement": "IsFree(s) is true exactly when s<16 and bit s of the 16-bit big-endian value of the first two bitmap bytes is set; sectors >= 16 are never reported free.", "quantifier": "every 4-byte bitmap and every sector byte", "why_tests_cant": "2^32 bitmaps times 256 sectors.", "anchors": ["dos3/dos3.go:TrackFreeSectors.IsFree"]}
{"id": "C14", "title": "A default VTOC is valid, and validation accepts exactly the normal VTOCs", "statement": "DefaultVTOC passes Validate and marks all 35*16 sectors free and no other; Validate accepts a VTOC exactly when volume is not 255, release is 3, direction is +-1, 35 tracks, 13 or 16 sectors, 256 bytes per sector, 122 T/S pairs, and every unused bitmap byte is zero.", "quantifier": "every VTOC value", "why_tests_cant": "All field values.", "anchors": ["dos3/dos3.go:DefaultVTOC", "dos3/dos3.go:VTOC.Validate"]}
{"id": "C15", "title": "The DOS catalog lists exactly the live entries, in order", "statement": "When ReadCatalog succeeds, the files are exactly the file entries, over the whole chain of catalog sectors starting at the VTOC pointer, whose first track is neither 0 nor 0xFF, in chain order, the deleted list exactly those with 0xFF, and no entry is dropped or repeated; Catalog shows one descriptor per live entry with its name, size, lock bit and type.", "quantifier": "every disk image", "why_tests_cant": "All images and chains of any length.", "anchors": ["dos3/dos3.go:ReadCatalog", "dos3/dos3.go:readCatalogSectors", "dos3/dos3.go:operator.Catalog", "dos3/dos3.go:FileDesc.descriptor"]}
{"id": "C16", "title": "Reading a DOS catalog terminates on every image", "statement": "ReadCatalog (and hence ls, SeemsToMatch and auto-detection) returns for every image, including ones whose catalog chain loops; a looping chain is reported as an error.", "quantifier": "every disk image", "why_tests_cant": "Non-termination on crafted or corrupt images cannot be ruled out by tests.", "anchors": ["dos3/dos3.go:readCatalogSectors", "dos3/dos3.go:OperatorFactory.SeemsToMatch"]}
{"id": "C17", "title": "Reading a DOS file's sectors always terminates without a crash", "statement": "FileDesc.Contents returns data or an error for every image and every file entry; a track/sector list chain that revisits a sector is reported as an error.", "quantifier": "every image and every file entry", "why_tests_cant": "Termination over all (possibly corrupt) images.", "anchors": ["dos3/dos3.go:FileDesc.Contents"]}
{"id": "C18", "title": "DOS file contents are the sectors named by its track/sector lists", "statement": "When Contents succeeds the data is the concatenation, over the list chain in order, of the named sectors, with 256 zero bytes for each 0/0 hole; full lists contribute 122 entries and the last list stops at its last non-hole entry.", "quantifier": "every image and file entry", "why_tests_cant": "All chains and hole patterns.", "anchors": ["dos3/dos3.go:FileDesc.Contents"]}
{"id": "C19", "title": "DOS GetFile returns the typed payload of a file", "statement": "GetFile returns: for text files the contents without trailing zero bytes; for Applesoft/Integer files exactly the `length` bytes after the 2-byte length; for binary files exactly the `length` bytes after the 4-byte header, with the header's load address; an error for other types; and it never crashes.", "quantifier": "every image and filename", "why_tests_cant": "All images; out-of-range lengths and all-zero files are crash candidates.", "anchors": ["dos3/dos3.go:operator.GetFile"]}
{"id": "C20", "title": "DOS filenames decode faithfully and look-up finds the first live entry", "statement": "A name of at most 30 characters not ending in a space, stored with high bits set and padded with spaces, decodes to itself; GetFile looks up exactly the first live entry whose decoded name equals the argument, and reports not-found when there is none.", "quantifier": "every name and every catalog", "why_tests_cant": "All names/catalogs.", "anchors": ["dos3/dos3.go:FileDesc.FilenameString", "dos3/dos3.go:operator.fileForFilename"]}
{"id": "C21", "title": "The NakedOS sector map survives load/store and storing touches only the map", "statement": "Persisting a sector map and loading it gives the same map; loading and persisting leaves the image unchanged; Persist changes only the 560 map bytes (track 0: sector 9 from 0xD0, sectors A and B).", "quantifier": "every floppy image and every 560-byte map", "why_tests_cant": "All images/maps.", "anchors": ["supermon/supermon.go:LoadSectorMap", "supermon/supermon.go:SectorMap.Persist"]}
{"id": "C22", "title": "Every NakedOS sector has exactly one owner and free space is conserved", "statement": "SectorsForFile lists exactly the sectors mapped to the file, once each, in disk order; lists of different files are disjoint; together with free and reserved sectors they cover all 560; SectorsByFile agrees with SectorsForFile; FreeSectors counts exactly the free ones, and a successful write changes the free count by exactly old size minus new size in sectors.", "quantifier": "every sector map and file number", "why_tests_cant": "All maps.", "anchors": ["supermon/supermon.go:SectorMap.SectorsForFile", "supermon/supermon.go:SectorMap.SectorsByFile", "supermon/supermon.go:SectorMap.FreeSectors"]}
{"id": "C23", "title": "A written NakedOS file reads back padded to whole sectors", "statement": "After WriteFile(file, contents) succeeds with non-empty contents, ReadFile(file) returns the contents followed by the zero bytes needed to reach a multiple of 256, and nothing else.", "quantifier": "every valid disk, file number 1..0xFD, contents, overwrite flag", "why_tests_cant": "All fragmentations of free space and all contents.", "anchors": ["supermon/supermon.go:SectorMap.WriteFile", "supermon/supermon.go:SectorMap.ReadFile"]}
{"id": "C24", "title": "Writing one NakedOS file never disturbs another", "statement": "WriteFile changes neither the sector list nor the contents of any other file, nor any image byte outside the sectors it allocates and the sector map.", "quantifier": "every valid disk, every pair of distinct files, contents", "why_tests_cant": "All layouts.", "anchors": ["supermon/supermon.go:SectorMap.WriteFile"]}
{"id": "C25", "title": "NakedOS writes are refused for the right reason and then change nothing", "statement": "WriteFile fails with an out-of-space error exactly when the sectors needed exceed free plus the file's own sectors, with a file-exists error exactly when there is room, the file exists and overwrite is false, and in both cases the image and the map are unchanged; on a valid disk with non-empty contents and a legal file number it has no other failure; the returned flag says whether the file existed.", "quantifier": "every valid disk, file number, contents, overwrite flag", "why_tests_cant": "All free-space situations.", "anchors": ["supermon/supermon.go:SectorMap.WriteFile", "errors/errors.go"]}
{"id": "C26", "title": "NakedOS changes are on the image when the call returns", "statement": "After every successful WriteFile, PutFile or Delete, loading the sector map from the image bytes gives exactly the in-memory map, so a later open of the image sees the change.", "quantifier": "every valid disk and operation", "why_tests_cant": "All disks and operations.", "anchors": ["supermon/supermon.go:SectorMap.WriteFile", "supermon/supermon.go:Operator.PutFile", "supermon/supermon.go:Operator.Delete", "supermon/supermon.go:OperatorFactory.Operator"]}
{"id": "C27", "title": "NakedOS system sectors are never allocated and the map stays legal", "statement": "Over every history of PutFile, Delete and reads starting from an image that opens, the map keeps passing Verify: track 0 sectors 0-B stay reserved, no entry becomes zero; and the bytes of track 0 sectors 0-8 and of the first 0xD0 bytes of sector 9 never change.", "quantifier": "every starting image and every finite history of operations", "why_tests_cant": "Unbounded histories.", "anchors": ["supermon/supermon.go:SectorMap.Verify", "supermon/supermon.go:Operator"]}
{"id": "C28", "title": "A NakedOS disk behaves as a map from file number to contents under any history", "statement": "For every history of PutFile/Delete/GetFile by DFxx name, the bytes read for a file are the zero-padded contents of the last successful put to that number not followed by a delete of it (or the original contents if never touched), independent of all operations on other files.", "quantifier": "every starting image and every finite history", "why_tests_cant": "Unbounded histories with fragmentation, overwrite and out-of-space events.", "anchors": ["supermon/supermon.go:Operator.PutFile", "supermon/supermon.go:Operator.GetFile", "supermon/supermon.go:Operator.Delete"]}
{"id": "C29", "title": "Deleting a NakedOS file removes that file only and frees its space", "statement": "Operator.Delete(name) returns true exactly when the named file had sectors; afterwards the file has no sectors and every one of its former sectors is free, all other files keep sectors and contents.", "quantifier": "every valid disk and name", "why_tests_cant": "All disks; interaction with rewriting the symbol table files.", "anchors": ["supermon/supermon.go:Operator.Delete", "supermon/supermon.go:SectorMap.Delete"]}
{"id": "C30", "title": "Super-Mon symbol names survive encoding", "statement": "Every legal symbol name (3-9 letters and digits fitting in 48 bits) encodes to six bytes that decode to the upper-cased name; the empty name encodes to zeros and decodes to the empty name; too-short, too-long and unrepresentable names are rejected with an error rather than silently altered.", "quantifier": "every string", "why_tests_cant": "All names of 3-9 characters over 36 symbols, and all invalid strings.", "anchors": ["supermon/supermon.go:encodeSymbol", "supermon/supermon.go:decodeSymbol"]}
{"id": "C31", "title": "A Super-Mon symbol table survives write and read", "statement": "If WriteSymbolTable succeeds on a well-formed 819-entry table on a valid disk, ReadSymbolTable returns the same table (names upper-cased, empty entries canonical).", "quantifier": "every well-formed table and valid disk", "why_tests_cant": "All tables and disk layouts.", "anchors": ["supermon/supermon.go:SectorMap.WriteSymbolTable", "supermon/supermon.go:SectorMap.ReadSymbolTable"]}
{"id": "C32", "title": "Adding and deleting symbols behaves like a case-insensitive map", "statement": "After AddSymbol(name,addr) succeeds ByName(name) is addr and every other name resolves as before; after DeleteSymbol(name) returns true the name no longer resolves (when it was unique) and every other name resolves as before; AddSymbol fails only for address 0 or a full table and then changes nothing.", "quantifier": "every table, name and address", "why_tests_cant": "All tables.", "anchors": ["supermon/supermon.go:SymbolTable.AddSymbol", "supermon/supermon.go:SymbolTable.DeleteSymbol", "supermon/supermon.go:SymbolTable.ByName"]}
{"id": "C33", "title": "Symbol chains stay consistent so the table can be read again", "statement": "Starting from a table that ReadSymbolTable accepted, after any history of AddSymbol and DeleteSymbol, writing the table and reading it again succeeds: no link points to an entry of a different hash, to itself or to an empty entry.", "quantifier": "every accepted table and finite history of additions and deletions", "why_tests_cant": "Unbounded histories.", "anchors": ["supermon/supermon.go:SymbolTable.AddSymbol", "supermon/supermon.go:SymbolTable.DeleteSymbol", "supermon/supermon.go:SectorMap.ReadSymbolTable"]}
{"id": "C34", "title": "DFxx names and file numbers correspond one to one", "statement": "For each file number 1..0xFD the printed name DFxx resolves to exactly that file whatever the symbol table; a name resolves to a number only by that rule, as a bare hex number 1..FD, or by a symbol whose address is in DF01..DFFD; the result is always in 1..0xFD; unknown names give a file-not-found error.", "quantifier": "every string and every symbol table", "why_tests_cant": "All strings.", "anchors": ["supermon/supermon.go:parseAddressFilename", "supermon/supermon.go:SymbolTable.FileForName", "supermon/supermon.go:NameForFile"]}
{"id": "C35", "title": "What is put under a NakedOS name is what is got under that name", "statement": "If PutFile of a non-empty binary under a DFxx, symbolic or DFxx:symbol name succeeds, GetFile under the same (number or symbol) name returns the contents padded to whole sectors, with matching length and sector count.", "quantifier": "every operator state, name and contents", "why_tests_cant": "All states; interaction of file allocation, symbols and symbol table storage.", "anchors": ["supermon/supermon.go:Operator.PutFile", "supermon/supermon.go:Operator.GetFile"]}
{"id": "C36", "title": "The NakedOS catalog lists exactly the existing files", "statement": "Catalog returns one entry for each file number 1..0xFD owning at least one sector, in increasing order, with the exact sector count and length, a DFxx full name, and the first symbol for its address as its name; free and reserved space is never listed.", "quantifier": "every operator state", "why_tests_cant": "All maps and tables.", "anchors": ["supermon/supermon.go:Operator.Catalog", "supermon/supermon.go:NameForFile", "supermon/supermon.go:FullnameForFile"]}
{"id": "C37", "title": "NakedOS PutFile never crashes", "statement": "PutFile returns normally (success or error) for every FileInfo, including empty data, on every opened disk.", "quantifier": "every operator state and FileInfo", "why_tests_cant": "Crash candidates at size boundaries.", "anchors": ["supermon/supermon.go:Operator.PutFile", "supermon/supermon.go:SectorMap.WriteFile"]}
{"id": "C38", "title": "ParseCompoundSymbol accepts valid symbols and rejects invalid ones", "statement": "ParseCompoundSymbol returns: for a known symbol its address; for a hex number that address; for any other valid symbol name the name itself; for XXXX:name the number, the symbol's address and name; and an error for anything else.", "quantifier": "every string and table", "why_tests_cant": "All strings.", "anchors": ["supermon/supermon.go:SymbolTable.ParseCompoundSymbol"]}
{"id": "C39", "title": "Compound NakedOS filenames are parsed unambiguously", "statement": "FilesForCompoundName returns for DFxx the number only; for a known symbol its number twice and the symbol; for an unknown name just the name; for DFxx:name the number, the name's current file (0 if none) and the name; more than one colon, a bad number before the colon, or a number after it are errors.", "quantifier": "every string and table", "why_tests_cant": "All strings.", "anchors": ["supermon/supermon.go:SymbolTable.FilesForCompoundName"]}
{"id": "C40", "title": "ProDOS directory blocks survive load/store byte for byte and field for field", "statement": "For volume and subdirectory key blocks and ordinary blocks (with headers, file descriptors and timestamps), decode-then-encode is the identity on every 512-byte block and encode-then-decode is the identity on every value.", "quantifier": "every 512-byte block and every structure value", "why_tests_cant": "256^512 blocks; tests try one random block.", "anchors": ["prodos/prodos.go:VolumeDirectoryKeyBlock", "prodos/prodos.go:VolumeDirectoryBlock", "prodos/prodos.go:SubdirectoryKeyBlock", "prodos/prodos.go:SubdirectoryBlock", "prodos/prodos.go:FileDescriptor"]}
{"id": "C41", "title": "Marking a ProDOS block changes the freeness of that block only", "statement": "After MarkUnused(b) IsFree(b) is true, after MarkUsed(b) it is false, and for every other block covered by the bitmap IsFree is unchanged.", "quantifier": "every bitmap, every pair of covered block numbers, any sequence of marks", "why_tests_cant": "All bitmaps and pairs.", "anchors": ["prodos/prodos.go:VolumeBitMap.mark", "prodos/prodos.go:VolumeBitMap.IsFree"]}
{"id": "C42", "title": "A new ProDOS bitmap marks exactly the device's blocks free", "statement": "NewVolumeBitMap(start,n) covers at least n blocks, reports exactly blocks 0..n-1 free, occupies consecutive blocks from start, and never crashes.", "quantifier": "every start block and every 16-bit block count", "why_tests_cant": "All 65536 sizes including arithmetic wrap-around.", "anchors": ["prodos/prodos.go:NewVolumeBitMap"]}
{"id": "C43", "title": "Reading a ProDOS volume loads the bitmap of the whole device", "statement": "After reading a volume, the in-memory bitmap answers IsFree for every block of the device without crashing, from the bits stored on the device.", "quantifier": "every device image", "why_tests_cant": "All device sizes.", "anchors": ["prodos/prodos.go:readVolumeBitMap", "prodos/prodos.go:readVolume"]}
{"id": "C44", "title": "A ProDOS bitmap written to a device is read back", "statement": "VolumeBitMap.Write stores each part in its block and changes no other block; reading those blocks gives the same bits; it fails exactly when some part lies beyond the device.", "quantifier": "every bitmap and device image", "why_tests_cant": "All images.", "anchors": ["prodos/prodos.go:VolumeBitMap.Write", "disk/marshal.go:MarshalBlock"]}
{"id": "C45", "title": "ProDOS index block entries can be set and got", "statement": "After Set(n,b) on an index block, Get(n) returns b and every other entry is unchanged.", "quantifier": "every index block, entry number and block number", "why_tests_cant": "All 2^4096 index blocks times entries.", "anchors": ["prodos/prodos.go:IndexBlock.Set", "prodos/prodos.go:IndexBlock.Get"]}
{"id": "C46", "title": "The ProDOS catalog lists exactly the non-deleted entries of the directory, in order", "statement": "When Catalog(\"\") succeeds, it lists exactly the entries with non-zero storage type of the key block and of the chain of following blocks, in order, with name, size, length and type as stored; Catalog(path) does the same for the subdirectory with that full path, and an unknown path is an error.", "quantifier": "every device image and path", "why_tests_cant": "All images and chains of any length.", "anchors": ["prodos/prodos.go:operator.Catalog", "prodos/prodos.go:readVolume", "prodos/prodos.go:readSubdirectory"]}
{"id": "C47", "title": "Reading a ProDOS volume terminates on every image", "statement": "readVolume (hence ls, SeemsToMatch and auto-detection) returns a volume or an error for every image, including looping directory chains, subdirectories that contain themselves, and looping parent pointers.", "quantifier": "every device image", "why_tests_cant": "Non-termination on corrupt images cannot be excluded by tests.", "anchors": ["prodos/prodos.go:readVolume", "prodos/prodos.go:readSubdirectory", "prodos/prodos.go:parentDirName"]}
{"id": "C48", "title": "ProDOS subdirectory look-up does not depend on map iteration order", "statement": "The subdirectories found by full path are the same for every iteration order of the internal map; each is registered under the path formed by its ancestors' names, provided full paths are distinct.", "quantifier": "every image and every iteration order", "why_tests_cant": "Go map iteration order is random; tests sample it.", "anchors": ["prodos/prodos.go:readVolume", "prodos/prodos.go:parentDirName"]}
{"id": "C49", "title": "Reading and writing ProDOS blocks is exact", "statement": "Marshalling a block structure writes exactly its 512 bytes at 512*index and nothing else, unmarshalling reads exactly those; both fail exactly when the block lies beyond the device.", "quantifier": "every device image, index and block", "why_tests_cant": "All images.", "anchors": ["disk/marshal.go:MarshalBlock", "disk/marshal.go:UnmarshalBlock"]}
{"id": "C50", "title": "Applesoft programs decode to their lines", "statement": "For every list of lines (number below 65536, non-zero plain characters or known tokens) laid out in memory at the given location in the standard linked format, with or without the 2-byte length header, Decode returns exactly those lines with those numbers.", "quantifier": "every program that fits in memory and every location", "why_tests_cant": "All programs.", "anchors": ["basic/applesoft/applesoft.go:Decode"]}
{"id": "C51", "title": "Applesoft decoding always finishes without a crash", "statement": "Decode returns a listing or an error for every input and location.", "quantifier": "every byte slice and location", "why_tests_cant": "Arbitrary, possibly corrupt input with forward, backward and looping line pointers.", "anchors": ["basic/applesoft/applesoft.go:Decode"]}
{"id": "C52", "title": "Integer BASIC programs decode to their lines", "statement": "For every list of lines (number below 65536, up to 251 bytes), laid out in the standard length-prefixed format, with or without the 2-byte length header, Decode returns exactly those lines.", "quantifier": "every program", "why_tests_cant": "All programs.", "anchors": ["basic/integer/integer.go:Decode"]}
{"id": "C53", "title": "Integer BASIC decoding always finishes without a crash", "statement": "Decode returns a listing or an error for every input.", "quantifier": "every byte slice", "why_tests_cant": "Arbitrary, possibly corrupt input.", "anchors": ["basic/integer/integer.go:Decode"]}
{"id": "C54", "title": "Escaped listings contain no control characters and lose nothing else", "statement": "ChevronControlCodes output contains no byte below 0x20 other than tab and newline, leaves every other byte in place and in order, is the identity on text without control characters and is idempotent; distinct control codes that have names get distinct names.", "quantifier": "every string", "why_tests_cant": "All strings.", "anchors": ["basic/basic.go:ChevronControlCodes", "basic/integer/integer.go:ChevronControlCodes"]}
{"id": "C55", "title": "A listing prints one line per program line, starting with its number", "statement": "Applesoft Listing.String is the concatenation of the lines' texts each followed by a newline, each text starts with the decimal line number and a space, plain characters appear verbatim, tokens as their Applesoft keyword with one space either side; every accepted token has a keyword.", "quantifier": "every listing", "why_tests_cant": "All programs.", "anchors": ["basic/applesoft/applesoft.go:Line.String", "basic/applesoft/applesoft.go:Listing.String"]}
{"id": "C56", "title": "A Standard Delivery disk holds the whole binary in boot order", "statement": "When mksd succeeds, sector 0 of physical track 0 is the loader and the k-th 256-byte page of the zero-padded binary is the k-th sector in the loader's visiting order (0/2, 0/4, ... 0/14, 0/1, 0/3, ..., 0/15, 1/0, 1/2, ...); no two pages share a sector, none overwrites the loader, and all other sectors are zero.", "quantifier": "every binary, load and start address accepted", "why_tests_cant": "All binaries and sizes.", "anchors": ["cmd/sd.go:SDCmd.Run"]}
{"id": "C57", "title": "Standard Delivery accepts exactly the loadable binaries", "statement": "mksd succeeds exactly when the load address is page aligned, start lies inside the loaded binary, nothing is loaded at or past 0xC000 and the page table fits the boot sector; then the loader's page list is load page, load page+1, ... for each sector, terminated by 0xC0 which occurs nowhere earlier in the list, and the final jump goes to the start address.", "quantifier": "every binary, address, start", "why_tests_cant": "All sizes/addresses.", "anchors": ["cmd/sd.go:SDCmd.Run"]}
{"id": "C58", "title": "Files are not overwritten without permission", "statement": "WriteOutput without force on an existing path returns an error and leaves the file system unchanged; otherwise the path holds exactly the contents and every other path is unchanged; '-' writes to standard output and changes no file. No command changes a file that is there unless it was told to replace it: the image that put, rm, mkhello or reorder are to change, the disk that mksd is to make, or, with --overwrite, the new image of reorder.", "quantifier": "every file system state, path, contents, every command", "why_tests_cant": "All states.", "anchors": ["helpers/helpers.go:WriteOutput", "cmd/reorder.go:ReorderCmd.Run"]}
{"id": "C59", "title": "A failing command leaves every file untouched", "statement": "If put, rm, mkhello, reorder, mksd, ls, dump or applesoft decode fails, no file is changed; if put, rm, mkhello or in-place reorder succeeds only the named disk image changes and keeps its size; ls, dump and decode never change a file.", "quantifier": "every file system state and command line", "why_tests_cant": "All failure points of all commands.", "anchors": ["cmd/put.go", "cmd/delete.go", "cmd/nakedos.go", "cmd/reorder.go", "cmd/sd.go", "cmd/catalog.go", "cmd/dump.go"]}
{"id": "C60", "title": "A crash during write-back never mixes files", "statement": "At every crash point of a command that rewrites an image, every file other than the image is unchanged and the image is the old one or a (possibly empty) prefix of the new one; the user would rely on it being the old or the new one.", "quantifier": "every command and crash point", "why_tests_cant": "Crash points cannot be enumerated by unit tests.", "anchors": ["helpers/helpers.go:WriteOutput", "disk/open.go:WriteBack"]}
{"id": "C61", "title": "mkhello writes a loader for the requested file and addresses", "statement": "When mkhello succeeds, file DF01 of the image starts with the 16-byte program that loads the requested file number at the requested page-aligned address and jumps to the requested start (default: the load address), and FHELLO resolves to DF01; misaligned addresses, start below address, non-NakedOS images and unknown names are errors.", "quantifier": "every image, filename, address, start", "why_tests_cant": "All addresses and names.", "anchors": ["cmd/nakedos.go:MkHelloCmd.Run"]}
{"id": "C62", "title": "Filetype names are unambiguous", "statement": "FiletypeForName resolves every full name and every advertised three- and one-letter abbreviation to its own type, different entries have different types and names, an unknown name is an error, and every ProDOS type byte has a name.", "quantifier": "every entry of the type table and every string", "why_tests_cant": "The full table with shadowing between 1-letter, 3-letter and full names.", "anchors": ["types/filetype.go:FiletypeForName", "types/filetype.go:filetypeInfos", "types/filetype.go:init"]}
{"id": "C63", "title": "A file put into an image by one command is found by a later one", "statement": "After a put (or mkhello) into a NakedOS image file succeeds and is written back, opening that file again with the same order and system gives an operator on which the file has the contents put (padded), the other files are unchanged and the symbol resolves.", "quantifier": "every NakedOS image, order, name and contents", "why_tests_cant": "Composition of open, reorder, allocate, symbol table, write back, reopen.", "anchors": ["cmd/put.go:PutCmd.Run", "disk/open.go:OpenImage", "disk/open.go:WriteBack", "supermon/supermon.go:OperatorFactory.Operator"]}
{"id": "C64", "title": "Error kinds are mutually exclusive and correctly reported", "statement": "Out-of-space, file-exists and file-not-found errors are each recognised by exactly their own predicate and by no other; ordinary errors by none.", "quantifier": "every error created through the package", "why_tests_cant": "All messages.", "anchors": ["errors/errors.go"]}
{"id": "C65", "title": "Numeric flags accept exactly 16-bit numbers in Go literal syntax", "statement": "The address/start flags accept a string exactly when it is a Go integer literal (decimal, 0x, 0o/0, 0b, with well-placed underscores) of value at most 65535, and yield that value.", "quantifier": "every string", "why_tests_cant": "All strings.", "anchors": ["main.go:hexUint16Mapper.Decode"]}
{"id": "C66", "title": "Integer BASIC listings show every line as it was typed", "statement": "Integer BASIC Listing.String shows each line as its number padded to five columns, a space, and its pieces in order: keywords (followed by a space when longer than one character), numbers in decimal, names and string constants verbatim, and the text of a REM verbatim; then a newline.", "quantifier": "every line made of valid tokens, numbers, names, strings and remarks", "why_tests_cant": "All lines; the renderer keeps state between characters.", "anchors": ["basic/integer/integer.go:Line.String", "basic/integer/integer.go:Listing.String"]}
{"id": "C67", "title": "Systems without write support refuse to write and change nothing", "statement": "On an image opened as DOS 3.3 or ProDOS, put, rm and mkhello fail, and no file changes; so does reading a file from a ProDOS image.", "quantifier": "every image opened as DOS 3.3 or ProDOS, every command argument", "why_tests_cant": "All images, names, contents and flags.", "anchors": ["dos3/dos3.go:operator.PutFile", "dos3/dos3.go:operator.Delete", "prodos/prodos.go:operator.PutFile", "prodos/prodos.go:operator.Delete", "prodos/prodos.go:operator.GetFile", "cmd/put.go", "cmd/delete.go", "cmd/nakedos.go"]}
{"id": "C68", "title": "Symbols are grouped by address without loss", "statement": "SymbolsByAddress gives for each address other than 0 (which marks unused slots) exactly the symbols of the table with that address, in table order, and has no entry for other addresses; the first of them is the name shown for the file at that address.", "quantifier": "every symbol table and address", "why_tests_cant": "All tables, with aliases and empty entries.", "anchors": ["supermon/supermon.go:SymbolTable.SymbolsByAddress", "supermon/supermon.go:SymbolTable.SymbolsForAddress"]}
{"id": "C69", "title": "Checking a ProDOS directory block reports exactly what is wrong with it", "statement": "Validate of a directory block read from 512 bytes reports a problem exactly if the back pointer of a key block is not 0, the byte after the name in a subdirectory header is not $75, the last byte is not 0, or a time of day in the header or an entry is not a time of day (minute below 60, hour below 24, stored in this order).", "quantifier": "every 512-byte block, as each of the four kinds of directory blocks", "why_tests_cant": "All blocks; 25 or 26 time fields each.", "anchors": ["prodos/prodos.go:VolumeDirectoryKeyBlock.Validate", "prodos/prodos.go:VolumeDirectoryBlock.Validate", "prodos/prodos.go:SubdirectoryKeyBlock.Validate", "prodos/prodos.go:SubdirectoryBlock.Validate", "prodos/prodos.go:DateTime.Validate"]}
{"id": "C70", "title": "An image is taken for a ProDOS volume exactly if all its directories can be read", "statement": "SeemsToMatch says yes exactly if the volume directory and every subdirectory reachable from it lie on the device and every subdirectory's parent pointer leads into a directory of the volume; the answer does not depend on map iteration order. (So a blank disk is taken for an empty ProDOS volume.)", "quantifier": "every image, every iteration order", "why_tests_cant": "All images and all shapes of directory trees.", "anchors": ["prodos/prodos.go:OperatorFactory.SeemsToMatch", "prodos/prodos.go:readVolume", "prodos/prodos.go:parentDirName"]}
{"id": "C71", "title": "ls prints exactly the directory", "statement": "On a NakedOS image ls prints one line per existing file, in order of file number, with its name (the DFxx name and its first symbol, or the shorter of them with --short); on a DOS 3.3 image one line per live catalog entry in catalog order; on a ProDOS image the entries of the named directory (the volume directory by default) in order; a directory argument on a system without directories and an unknown directory are errors; no file changes.", "quantifier": "every image, system, directory argument and flag", "why_tests_cant": "All images.", "anchors": ["cmd/catalog.go:LsCmd.Run", "supermon/supermon.go:Operator.Catalog", "dos3/dos3.go:operator.Catalog", "prodos/prodos.go:operator.Catalog"]}
{"id": "C72", "title": "dump prints exactly the file's contents", "statement": "dump writes to standard output exactly the contents of the named file: on NakedOS the bytes of its sectors in order, on DOS 3.3 the typed payload (C19); an unknown name is an error, and then nothing is printed; on ProDOS it is always an error; no file changes.", "quantifier": "every image, system and name", "why_tests_cant": "All images and names.", "anchors": ["cmd/dump.go:DumpCmd.Run", "supermon/supermon.go:Operator.GetFile", "dos3/dos3.go:operator.GetFile"]}
{"id": "C73", "title": "rm removes exactly the named file from the image file", "statement": "When rm succeeds on a NakedOS image, the image file, opened again, has no file of that number, its sectors are free, and every other file has its old contents; removing a file that does not exist is an error, without change to the image, unless --missingok is given, and then it succeeds.", "quantifier": "every NakedOS image, name and flag", "why_tests_cant": "Composition of open, resolve, free, write back, reopen.", "anchors": ["cmd/delete.go:DeleteCmd.Run", "supermon/supermon.go:Operator.Delete", "disk/open.go:WriteBack"]}
{"id": "C74", "title": "put without permission to overwrite keeps every existing file", "statement": "If put succeeds without --overwrite, every file that existed on the NakedOS image before has the same contents when the image is opened again (the two files of the symbol table aside); and only one of the two input arguments may be standard input.", "quantifier": "every NakedOS image, name and contents", "why_tests_cant": "All images and names, including DFxx:symbol names.", "anchors": ["cmd/put.go:PutCmd.Run", "supermon/supermon.go:Operator.PutFile", "supermon/supermon.go:SectorMap.WriteFile"]}
{"id": "C75", "title": "decode prints the listing of the program it is given", "statement": "applesoft decode of a saved Applesoft program (with or without its two-byte length, from a file or standard input) prints one line per program line with its number in decimal, its plain characters and its tokens as Applesoft's keywords, control characters escaped unless told not to; so does dump of a program on a DOS 3.3 disk piped into decode. If it fails nothing is printed; no file changes.", "quantifier": "every program, load address, input and flag", "why_tests_cant": "All programs; composition of dump, header detection, decoding, keyword table and escaping.", "anchors": ["cmd/applesoft.go:DecodeCmd.Run", "basic/applesoft/applesoft.go:Decode", "basic/applesoft/applesoft.go:Listing.String", "basic/basic.go:ChevronControlCodes", "cmd/dump.go:DumpCmd.Run"]}
{"id": "C76", "title": "A disk made by mksd boots", "statement": "Booted on an Apple II from any slot, a disk made by mksd loads the whole binary to the load address and then jumps to the start address; until then only the loader and the ROM run.", "quantifier": "every binary, load address and start address that mksd accepts, every slot, every contents of memory, registers and stack pointer before", "why_tests_cant": "The loader is 79 bytes of machine code with a page table of up to 176 entries, stepping the drive over up to 12 tracks; tests compare bytes and run nothing.", "anchors": ["cmd/sd.go:SDCmd.Run"]}
{"id": "C77", "title": "A session of commands on a NakedOS image is a session on its files", "statement": "Over any sequence of commands on an image file - put, rm and mkhello on it, anything else elsewhere, other files changing in between - its files (those of the symbol table, 3 and 4, aside) are what the commands one after the other make of them: a command that fails changes nothing, put replaces one file - the one numbered in its name, if one is - by the data padded to whole sectors, without --overwrite only one that was not there, rm removes one, mkhello replaces file 1. So without --overwrite, rm and mkhello nothing is ever lost; dump prints exactly these contents, and ls lists exactly these files, in increasing order.", "quantifier": "every NakedOS image whose sector order is named or follows from the file name, every finite history of commands", "why_tests_cant": "All histories; every command opens, changes, reorders and writes back the whole image.", "anchors": ["cmd/put.go:PutCmd.Run", "cmd/delete.go:DeleteCmd.Run", "cmd/nakedos.go:MkHelloCmd.Run", "disk/open.go:WriteBack", "supermon/supermon.go:SectorMap.WriteFile"]}
{"id": "C78", "title": "put of a numbered file succeeds exactly when there is room and permission", "statement": "On a NakedOS image put of a non-empty file of type binary under a number succeeds if and only if the sectors it needs are free or belong to the file it replaces, and it replaces no file unless --overwrite is given.", "quantifier": "every NakedOS image, number, contents and flag", "why_tests_cant": "All images and sizes, down to the last free sector.", "anchors": ["cmd/put.go:PutCmd.Run", "supermon/supermon.go:SectorMap.WriteFile", "supermon/supermon.go:SectorMap.FreeSectors"]}
{"id": "C79", "title": "Commands that run at the same time act as if one ran after the other", "statement": "What a command does depends only on the files named on its command line; while other programs run at the same time, the result is that of running one after the other, and nobody's work is lost.", "quantifier": "every pair of commands, every file system, every interruption between a command's reading and its writing", "why_tests_cant": "Schedules: the other program may run at any time between reading and writing.", "anchors": ["helpers/helpers.go:WriteOutput", "helpers/helpers.go:FileContentsOrStdIn", "disk/open.go:OpenFilename", "disk/open.go:WriteBack"]}
{"id": "C80", "title": "No command crashes, whatever the image", "statement": "Whatever the images, programs, files and arguments are, a command succeeds or ends with an error message; the program does not crash with a Go panic.", "quantifier": "every command with all its arguments, every contents of every file", "why_tests_cant": "All images of any size, also damaged or hostile ones, all programs and all arguments.", "anchors": ["main.go:run", "dos3/dos3.go:operator.GetFile", "supermon/supermon.go:SectorMap.WriteFile", "basic/applesoft/applesoft.go:Decode", "cmd/dump.go:DumpCmd.Run", "cmd/put.go:PutCmd.Run", "cmd/applesoft.go:DecodeCmd.Run"]}
{"id": "C81", "title": "A reordered image is the same disk to every command", "statement": "reorder makes an image with the same disk in the other sector order, and changes no other file. On the new image every ls, dump, put, rm and mkhello, and every sequence of them, ends with the same outcome, prints the same and leaves the same disk as on the original, up to the sector order.", "quantifier": "every image of every operating system, every two images whose orders are named or follow from their names, every command and every finite sequence of commands", "why_tests_cant": "All images, commands and histories; relates two whole runs.", "anchors": ["cmd/reorder.go:ReorderCmd.Run", "disk/open.go:OpenImage", "disk/open.go:WriteBack", "disk/open.go:Swizzle", "cmd/catalog.go:LsCmd.Run", "cmd/dump.go:DumpCmd.Run", "cmd/put.go:PutCmd.Run"]}
{"id": "C82", "title": "An image that was only half written is noticed", "statement": "A command that writes an image and succeeds leaves a complete one, of 143360 bytes. If the process dies while it writes, the file is as before, as after, or cut short; and every later command given a file that was cut short as its disk ends with an error, prints nothing and changes nothing.", "quantifier": "every command that writes an image, every moment at which it dies, every later command", "why_tests_cant": "Crash points; composition of a crash with any later command.", "anchors": ["helpers/helpers.go:WriteOutput", "disk/open.go:OpenImage", "cmd/reorder.go:ReorderCmd.Run", "disk/open.go:WriteBack"]}
{"id": "C83", "title": "A session of commands keeps names attached to their files", "statement": "Over any sequence of commands on a NakedOS image with a symbol table, names mean what the commands one after the other make them mean: put under DFxx:symbol makes the symbol (in upper or lower case) stand for that file, put under a symbol alone writes the file it stands for, or a file that was not there and that it stands for from then on; rm of a symbol removes its file and the symbol; nothing else changes what a symbol stands for. dump of a symbol prints its file, a symbol that stands for nothing is unknown, and ls shows every file with a symbol that stands for it. A put succeeds if there is room for the file and the symbol and it is allowed to overwrite, and rm of a symbol succeeds if its file is there.", "quantifier": "every NakedOS image with a symbol table in order, every finite history of commands", "why_tests_cant": "All histories, all shapes of hash chains in the table; every command reads, changes and rewrites the table and its extensions as two files of the image.", "anchors": ["supermon/supermon.go:SymbolTable.AddSymbol", "supermon/supermon.go:SymbolTable.DeleteSymbol", "supermon/supermon.go:SymbolTable.FilesForCompoundName", "supermon/supermon.go:SectorMap.WriteSymbolTable", "cmd/put.go:PutCmd.Run", "cmd/delete.go:DeleteCmd.Run"]}
{"id": "C84", "title": "An image is opened as the first kind of disk it can be taken for", "statement": "A floppy image opened without naming both order and system is opened as the first disk it can be taken for, trying order by order DOS 3.3 (normal VTOC and a catalog that ends), NakedOS (a legal sector map) and ProDOS (all directories readable); what it is opened as, it is, and it is none of those tried before; if it can be taken for none it is an error. With order and system named, it is opened as such a disk, for NakedOS only if it is one. Opening always ends.", "quantifier": "every floppy image, file name, order and system flag", "why_tests_cant": "All images; the three systems' recognition tests read whole catalogs, maps and directory trees.", "anchors": ["disk/open.go:openDoOrPo", "disk/open.go:OpenImage", "dos3/dos3.go:OperatorFactory.SeemsToMatch", "supermon/supermon.go:OperatorFactory.SeemsToMatch", "prodos/prodos.go:OperatorFactory.SeemsToMatch", "main.go:run"]}
{"id": "C85", "title": "Space on a NakedOS image is never lost", "statement": "No sequence of commands changes how many sectors of a NakedOS image are available to files: every available sector is free or belongs to one file, whatever was put, overwritten and removed before. The two files of a readable symbol table always have 32 of them. So whether put of a non-empty file by number succeeds depends only on the sizes of the files that are there, not on where their sectors lie or on what happened before: it succeeds exactly if the sectors it needs, those of the other files and those of the symbol table together do not exceed the sectors available, and the file is not there yet or may be overwritten.", "quantifier": "all sessions of commands of any length with put, rm and mkhello on an image and any other commands, on every NakedOS image with or without a symbol table; all contents and sizes", "why_tests_cant": "Leaks and fragmentation show only after long histories of puts and removals of files of all sizes; a test follows one short history.", "anchors": ["supermon/supermon.go:Operator.PutFile", "supermon/supermon.go:Operator.Delete", "supermon/supermon.go:SectorMap.WriteFile", "supermon/supermon.go:SectorMap.WriteSymbolTable", "cmd/put.go:PutCmd.Run", "cmd/delete.go:DeleteCmd.Run"]}
{"id": "C86", "title": "The same command on the same files gives the same result", "statement": "Running a command twice from the same files gives the same outcome, prints the same and leaves the same files: nothing depends on the order in which Go happens to visit its maps, and more time changes nothing for a command that ends.", "quantifier": "every command with any arguments, every content of files and standard input, every order of map iteration in each run, every budget of steps", "why_tests_cant": "Go randomises map iteration, so a run shows one order of many; that two orders agree for every volume cannot be seen by running.", "anchors": ["prodos/prodos.go:readVolume", "prodos/prodos.go:parentDirName", "prodos/prodos.go:operator.Catalog", "disk/open.go:OpenImage", "cmd/catalog.go:LsCmd.Run", "main.go:run"]}
{"id": "C87", "title": "Every command comes to an end", "statement": "Whatever command is given, on whatever files, it is over after finitely many steps: no image and no program makes it run for ever. A bound on the time depends only on the files, not on the order in which Go visits its maps.", "quantifier": "all commands with all their arguments, all contents of all files and of standard input, all orders of map iteration", "why_tests_cant": "a test that does not end looks like a slow one, and the images that loop are those nobody thought of; termination for every image is an induction over the loops of the code", "anchors": ["cmd/catalog.go:LsCmd.Run", "cmd/dump.go:DumpCmd.Run", "cmd/delete.go:DeleteCmd.Run", "cmd/put.go:PutCmd.Run", "cmd/nakedos.go:MkHelloCmd.Run", "cmd/sd.go:SDCmd.Run", "cmd/reorder.go:ReorderCmd.Run", "cmd/applesoft.go:DecodeCmd.Run", "disk/open.go:OpenImage", "dos3/dos3.go:readCatalogSectors", "prodos/prodos.go:readVolume", "basic/applesoft/applesoft.go:Decode"]}
{"id": "C88", "title": "A command that could not write everything says so", "statement": "If standard output or the file system refuses any part of what a command puts out, the command exits with a status other than 0; with status 0, files and standard output are as if nothing could fail.", "quantifier": "all commands with all arguments, all contents of files and standard input, every combination of writes that fail and of the number of bytes that got through", "why_tests_cant": "tests write to media that accept everything; each write can fail at each byte, and whether the error is passed on to the exit status must be seen on every path", "anchors": ["main.go:main", "helpers/helpers.go:WriteOutput", "cmd/catalog.go:LsCmd.Run", "cmd/dump.go:DumpCmd.Run", "cmd/applesoft.go:DecodeCmd.Run", "cmd/filetypes.go:FiletypesCmd.Run", "disk/open.go:WriteBack"]}
{"id": "C89", "title": "A write that fails does no damage", "statement": "If a command cannot write its output file completely, the file keeps its old contents and all other files are untouched.", "quantifier": "all commands with all arguments, all contents of files, every way and point in which writing can fail", "why_tests_cant": "a full disk at each byte of the write is not something a unit test produces", "anchors": ["helpers/helpers.go:WriteOutput", "disk/open.go:WriteBack", "cmd/reorder.go:ReorderCmd.Run", "cmd/put.go:PutCmd.Run", "cmd/delete.go:DeleteCmd.Run", "cmd/nakedos.go:MkHelloCmd.Run", "cmd/sd.go:SDCmd.Run"]}
{"id": "C90", "title": "Putting the same file again changes nothing", "statement": "Once a put of some contents under some name has succeeded, putting the same contents under the same name again, with overwriting, succeeds and changes no byte of the image or of any other file.", "quantifier": "all disk images, all names, all contents that are not empty, all flags under which the image is opened as the same NakedOS disk, anything happening to other files in between", "why_tests_cant": "which sectors the second put chooses depends on the whole sector map and on whether the first put also rewrote the symbol table; a test sees one map", "anchors": ["supermon/supermon.go:Operator.PutFile", "supermon/supermon.go:SectorMap.WriteFile", "supermon/supermon.go:SectorMap.WriteSymbolTable", "cmd/put.go:PutCmd.Run"]}
{"id": "C91", "title": "When put succeeds", "statement": "On a NakedOS disk, put of contents that are not empty succeeds if and only if the file type is binary, the name says where to put the file (a number; a symbol of the table; a new symbol, while a file number is free; or a number, a colon and a symbol), the contents fit in the free sectors and those of the replaced file, a file is replaced only with permission, and, if a symbol is given, the disk has a readable symbol table, the symbol can be stored, and it stands for the file already or the table has an entry with it or an unused one and no name that cannot be stored again.", "quantifier": "all NakedOS images with any symbol table or none, all names, types, addresses, permissions and contents that are not empty", "why_tests_cant": "success and failure depend on the number of free sectors, on all owners and on all entries of the table; a test tries a few full and empty disks", "anchors": ["cmd/put.go:PutCmd.Run", "supermon/supermon.go:Operator.PutFile", "supermon/supermon.go:SectorMap.WriteFile", "supermon/supermon.go:SymbolTable.AddSymbol"]}
{"id": "C92", "title": "Copying a file with dump and put keeps its contents", "statement": "What dump prints of a file on one NakedOS disk, given to put on another (or the same) disk, is exactly what dump then prints there, byte for byte, under the number and under the symbol it was put by.", "quantifier": "all pairs of disk images, all file names, all flags under which both are opened as NakedOS disks, anything happening to other files in between", "why_tests_cant": "the copied contents pass through two sector maps and two symbol tables; a test copies one file between two disks", "anchors": ["cmd/dump.go:DumpCmd.Run", "cmd/put.go:PutCmd.Run", "supermon/supermon.go:Operator.GetFile", "supermon/supermon.go:Operator.PutFile"]}
{"id": "C93", "title": "Removing what was just put restores the disk", "statement": "If put creates a file that was not there and rm then removes it, the disk is as it was before: every byte outside free sectors, hence the owner of every sector, every other file, the listing and what every dump prints; under a symbol, all files and all names.", "quantifier": "all NakedOS images, all numbers and all symbols that stood for nothing, all contents that are not empty, all flags under which both commands open the image as NakedOS, anything happening to other files in between", "why_tests_cant": "which sectors are taken and given back depends on the owners of all 560 sectors and on the 819 entries of the symbol table; a test undoes one put on one disk", "anchors": ["cmd/put.go:PutCmd.Run", "cmd/delete.go:DeleteCmd.Run", "supermon/supermon.go:SectorMap.WriteFile", "supermon/supermon.go:SectorMap.Delete", "supermon/supermon.go:Operator.Delete", "supermon/supermon.go:SymbolTable.DeleteSymbol"]}
{"id": "C94", "title": "When rm succeeds, and removing twice", "statement": "On a NakedOS disk, rm succeeds if and only if the name stands for a file (by its number, or as the first entry of the symbol table with this name), the file is there or --missingok was given, and, if the name is in the symbol table, all other names of the table can be stored again. Doing it again with a number fails without --missingok, succeeds with it, and changes no byte of any file.", "quantifier": "all NakedOS images with any symbol table or none and all names; for doing it again, numbers that are not also spelled as a symbol", "why_tests_cant": "success depends on the owners of all sectors and on all entries of the symbol table; a test removes one file", "anchors": ["cmd/delete.go:DeleteCmd.Run", "supermon/supermon.go:Operator.Delete", "supermon/supermon.go:SectorMap.Delete", "supermon/supermon.go:SymbolTable.FileForName"]}
{"id": "C95", "title": "Damage in one file does not show in another", "statement": "If two images, taken for the same kind of disk, differ only in sectors of other files or of no file, ls prints the same for both and dump of this file prints the same and ends the same way.  For DOS 3.3: it depends only on the VTOC, the catalog sectors, and the lists and data sectors of the files with this name; for NakedOS: only on the map of owners, the symbol table and the sectors of this file.", "quantifier": "all pairs of DOS 3.3 images of the same size and all pairs of NakedOS images, with any contents in the sectors that may differ, all names, all flags under which both images are opened as this kind of disk", "why_tests_cant": "a reader that follows a wrong link or reads a wrong sector shows other bytes only if those differ; a test compares one intact disk with what it should hold", "anchors": ["dos3/dos3.go:operator.GetFile", "dos3/dos3.go:operator.Catalog", "supermon/supermon.go:Operator.GetFile", "supermon/supermon.go:Operator.Catalog", "cmd/dump.go:DumpCmd.Run", "cmd/catalog.go:LsCmd.Run"]}
{"id": "C96", "title": "Many files can be put in any order", "statement": "Putting a number of new files, with different numbers, one after the other, succeeds as a whole if and only if none of them is there yet and together they need no more sectors than are left; afterwards the image holds the old files and the new ones.  So the order does not matter, nor does it for any mixture of put and rm on different numbered files all of which succeed.", "quantifier": "all NakedOS images, all lists of non-empty files with different numbers other than those of the symbol table, in all orders, anything happening to other files between the commands", "why_tests_cant": "the number of orders is factorial in the number of files; whether the last file fits depends on all sectors taken by those before it", "anchors": ["cmd/put.go:PutCmd.Run", "cmd/delete.go:DeleteCmd.Run", "supermon/supermon.go:Operator.PutFile", "supermon/supermon.go:SectorMap.WriteFile", "supermon/supermon.go:SectorMap.Delete"]}
{"id": "C97", "title": "FHELLO loads and starts the program it was made for", "statement": "When mkhello succeeds, the program it put on the disk as FHELLO, started by NakedOS anywhere in free memory, reads the file that was asked for to the address asked for and jumps to the start asked for, if there is such a file and it fits in free memory and not over FHELLO itself.", "quantifier": "all NakedOS images, names, addresses and starts that mkhello accepts, all places in memory FHELLO may be read to, all contents of memory and registers, all machines on which a call of NakedOS to read a file does what it should", "why_tests_cant": "the sixteen bytes of machine code are only correct together with what the processor and NakedOS do; a test compares them with themselves", "anchors": ["cmd/nakedos.go:MkHelloCmd.Run", "supermon/supermon.go:SymbolTable.FilesForCompoundName", "supermon/supermon.go:Operator.PutFile"]}
{"id": "C98", "title": "Commands on files of their own can run at the same time", "statement": "Any number of commands can run at the same time, their system calls interleaved in any way, if none of them writes a file that another one names. Each then ends with the same outcome and output and leaves the same contents in its file as if it were alone, no other file changes, and when all have ended the files are as if the commands had been run one by one in any order.", "quantifier": "all sets of commands (finite or not) with that condition, all files and standard inputs, all schedules of their system calls, all orders of running them one by one", "why_tests_cant": "the number of interleavings is unbounded and a test cannot choose the schedule", "anchors": ["helpers/helpers.go:FileContentsOrStdIn", "helpers/helpers.go:WriteOutput", "disk/open.go:OpenFilename", "disk/open.go:WriteBack", "main.go:run", "cmd/put.go:PutCmd.Run", "cmd/reorder.go:ReorderCmd.Run"]}
{"id": "C99", "title": "Names that ls prints can be given to dump", "statement": "Every line that ls prints for a disk can be given to dump as a file name and prints the file listed there; ls lists exactly the files with contents, each once.", "quantifier": "all NakedOS disks and all DOS 3.3 disks with a catalog chain that ends, in short and in full listings, and all files on them", "why_tests_cant": "names come from tables on the disk, which can hold any text, also text that reads like the number of another file", "anchors": ["cmd/catalog.go:LsCmd.Run", "cmd/dump.go:DumpCmd.Run", "cmd/delete.go:DeleteCmd.Run", "supermon/supermon.go:SymbolTable.FileForName", "supermon/supermon.go:NameForFile", "supermon/supermon.go:FullnameForFile"]}
{"id": "C100", "title": "All the files of a disk can be copied to another", "statement": "If all files of a NakedOS disk (other than 3 and 4, which hold the symbol table) are dumped and put under their numbers on an empty NakedOS disk that is not smaller, in any order, every put succeeds, and afterwards dump prints the same on both disks under every number. If the other disk has files, this works exactly if no number is used on both and the sizes together fit, and then both sets of files are there.", "quantifier": "all pairs of NakedOS disks, whatever the orders of their sectors and wherever their files lie, all orders of copying, all worlds in which the commands run", "why_tests_cant": "the number of files and their places on the two disks are arbitrary, and success depends on sums over all of them", "anchors": ["cmd/dump.go:DumpCmd.Run", "cmd/put.go:PutCmd.Run", "supermon/supermon.go:Operator.GetFile", "supermon/supermon.go:Operator.PutFile", "supermon/supermon.go:SectorMap.WriteFile", "supermon/supermon.go:SectorMap.ReadFile"]}
{"id": "C101", "title": "Standard input and output can stand in for a file", "statement": "A file named on a command line can be replaced by - : the command then reads from standard input what it would have read from the file and prints what it would have written to it. It ends the same way, prints the same otherwise, does the same to every other file and leaves the file alone. This holds if the file has no extension, or the order of the image is given and the extension is not .hdv; if the command does not need standard input twice; and if it would have been allowed to write the file. When the order is guessed from an extension, it can fail.", "quantifier": "all commands and flags, all file names and contents, all states of the other files", "why_tests_cant": "eight commands with all their flags, arbitrary contents, and success as well as every kind of failure have to agree", "anchors": ["disk/open.go:OpenFilename", "disk/open.go:OpenFile", "helpers/helpers.go:FileContentsOrStdIn", "helpers/helpers.go:WriteOutput", "disk/open.go:WriteBack", "cmd/reorder.go:getOrders"]}
{"id": "C102", "title": "Reading an image while another command rewrites it", "statement": "While one command rewrites a file in place, other commands that only read that file go as if they had run before it or after it; the command that rewrites is not disturbed; and at every moment the file holds its old contents or a beginning of the new ones.", "quantifier": "all sets of commands of which only one writes a file that others name, all files and standard inputs, all schedules, every size of the pieces in which the system moves the bytes of a file", "why_tests_cant": "how a read and a write of the same file interleave is up to the system; the number of ways is unbounded and a test cannot choose one", "anchors": ["helpers/helpers.go:FileContentsOrStdIn", "helpers/helpers.go:WriteOutput", "disk/open.go:OpenFilename", "disk/open.go:WriteBack", "main.go:run", "cmd/reorder.go:ReorderCmd.Run", "cmd/dump.go:DumpCmd.Run"]}
{"id": "C103", "title": "When changing one name on a NakedOS disk loses them all", "statement": "After a successful put, mkhello or rm on a NakedOS disk, either the symbol that was given names the file (or is gone) and every other symbol stands for the file it stood for before, or the symbol table cannot be read any more and no symbol stands for anything. The second happens exactly when the entry that is taken out of its chain, or the unused entry that is taken, is still linked to from elsewhere in the table.", "quantifier": "all disk images that are opened as NakedOS disks, all their symbol tables, all file names, file contents and options, all successful commands", "why_tests_cant": "it depends on how the 819 entries of the symbol table are linked; every arrangement of links and hashes a user's disk can have is an input", "anchors": ["supermon/supermon.go:SymbolTable.DeleteSymbol", "supermon/supermon.go:SymbolTable.AddSymbol", "supermon/supermon.go:SectorMap.ReadSymbolTable", "supermon/supermon.go:SectorMap.WriteSymbolTable", "supermon/supermon.go:operator.PutFile", "supermon/supermon.go:operator.Delete"]}
{"id": "C104", "title": "filetypes prints every type once, in columns", "statement": "The command filetypes succeeds, changes no file, and prints two lines of headings and then exactly one line for each type it should list, in order; the description, the name, the three-letter name and the one-letter name of every type begin at the same four columns, and can be read off there.", "quantifier": "both settings of --all, all files and standard inputs; all entries of the table", "why_tests_cant": "the width of a column depends on all lines of the table together; a test would look at a few of them", "anchors": ["cmd/filetypes.go:FiletypesCmd.Run", "types/filetype.go:FiletypeInfos"]}
{"id": "C105", "title": "What any session does to the names on any NakedOS disk", "statement": "Take any NakedOS disk, with any symbol table or none, and any sequence of commands on it. Each command does to the files and the names what it asks for: a put gives the symbol its file, mkhello gives FHELLO file 1, rm takes the symbol away and brings to light an older one with the same name if there is one, everything else stays. The one exception is that a command which changes a name may cost all names at once. So a symbol that no command names means at the end what it meant at the beginning, or no symbol means anything.", "quantifier": "all disk images that are opened as NakedOS disks, all their symbol tables (also damaged ones, and ones with several symbols of the same name), all finite sequences of commands with all their arguments, and everything that happens to other files between the commands", "why_tests_cant": "histories are unbounded and each step depends on the whole table left behind by the ones before", "anchors": ["cmd/put.go:PutCmd.Run", "cmd/delete.go:DeleteCmd.Run", "cmd/nakedos.go:MkHelloCmd.Run", "supermon/supermon.go:operator.PutFile", "supermon/supermon.go:operator.Delete", "supermon/supermon.go:SymbolTable.AddSymbol", "supermon/supermon.go:SymbolTable.DeleteSymbol", "supermon/supermon.go:SymbolTable.ParseCompoundSymbol"]}
{"id": "C106", "title": "Commands that run at the same time all come to an end", "statement": "Run any finite number of commands at the same time, on whatever files, shared in whatever way, each reading and writing its files piece by piece and interrupted by the others at any of its system calls. A command that keeps getting turns comes to an end: no other command can keep it reading for ever by making its file grow, none waits for another, and it does not matter whether the others go on or have been killed in the middle of something. If all keep getting turns there is a time after which all have ended and no file changes any more.", "quantifier": "all finite families of commands with all their arguments (also several writing the same file, also one reading what another writes), all contents of the files, all standard inputs, all endless schedules, all sizes of the pieces", "why_tests_cant": "the schedules are endless: that something happens at some time is not settled by any finite run that has not got there yet", "anchors": ["helpers/helpers.go:FileContentsOrStdIn", "helpers/helpers.go:WriteOutput", "disk/open.go:OpenFilename", "disk/open.go:WriteBack"]}
{"id": "C107", "title": "Whatever is done to its files while it runs, a command behaves as on some files", "statement": "While a command runs, other programs of any kind may change, create and empty its files between any two of its system calls. If it comes to its end, it ends and prints as it would have alone on some files: each byte of a file it looked at was at that place at some moment while the command ran, at some moment there was nothing beyond its last byte, and a file it found missing was missing at some moment. If the others are diskii commands, no two of which write the same file, each leaves in its file what it would have left alone on these files. The commands that never crash alone never crash among other programs either. Excepted are a put of an image on itself and a reorder from a file to the same file by name without permission to overwrite, which look at the same file twice.", "quantifier": "all commands with all their arguments (but for the two excepted), all standard inputs, all sequences of states of the file system at the system calls, all sizes of the pieces read and written", "why_tests_cant": "the sequences of states are unbounded and the interruptions may come anywhere; a test would have to win a race", "anchors": ["helpers/helpers.go:FileContentsOrStdIn", "helpers/helpers.go:WriteOutput", "disk/open.go:OpenFilename", "disk/open.go:WriteBack", "cmd/put.go:PutCmd.Run", "cmd/reorder.go:ReorderCmd.Run"]}
{"id": "C108", "title": "Every file of a disk can be reached with the options the program offers", "statement": "The options a command offers suffice to work with every disk it can work with: on a NakedOS disk, dump, rm and put with options that the program accepts do what they would do if they could be told that the disk is NakedOS. When a command finds out by itself what a disk is, it does in every respect what it does when told so.", "quantifier": "all disk images, all commands with all their arguments, all worlds", "why_tests_cant": "whether a disk is taken for something else depends on all of its bytes, among them the contents of files put on it before; the options offered are declared in tags that no unit test exercises", "anchors": ["cmd/put.go:PutCmd", "cmd/delete.go:DeleteCmd", "cmd/dump.go:DumpCmd", "cmd/catalog.go:LsCmd", "disk/open.go:openDoOrPo", "main.go:run"]}
{"id": "C109", "title": "Putting and removing files leaves a Standard Delivery disk alone", "statement": "On a disk made by mksd, which holds a program and no files, put, rm and mkhello do not succeed and change no file.", "quantifier": "all binaries and addresses that mksd accepts, all orders of the image file, all options and arguments of put, rm and mkhello, anything happening to other files in between", "why_tests_cant": "what a disk is taken for depends on its bytes, and on a disk made by mksd these are those of the program; a test makes one disk", "anchors": ["cmd/sd.go:SDCmd.Run", "cmd/put.go:PutCmd.Run", "cmd/delete.go:DeleteCmd.Run", "cmd/nakedos.go:MkHelloCmd.Run", "disk/open.go:openDoOrPo", "supermon/supermon.go:OperatorFactory.SeemsToMatch"]}
{"id": "C110", "title": "A BASIC program kept on a NakedOS disk keeps its listing", "statement": "An Applesoft file that decode lists, put on a NakedOS disk under a number and dumped from there, is listed by decode exactly as before; an Integer BASIC program decodes to the same lines.", "quantifier": "all files that decode lists, all programs saved with or without their length, all NakedOS disks and numbers the put succeeds for, all spellings of the number, all locations, both ways to print control codes", "why_tests_cant": "the copy is padded to whole sectors, and whether the first two bytes are taken for a length depends on the length of the file; a test copies one program", "anchors": ["cmd/put.go:PutCmd.Run", "cmd/dump.go:DumpCmd.Run", "cmd/applesoft.go:DecodeCmd.Run", "basic/applesoft/applesoft.go:Decode", "basic/integer/integer.go:Decode", "supermon/supermon.go:SectorMap.WriteFile"]}
{"id": "C111", "title": "Upper and lower case are ignored for the letters A to Z only, whatever other bytes a name has", "statement": "A NakedOS file is found, deleted and replaced under a name that differs in the case of A-Z from the symbol on the disk, and under no other name, even when the name given has characters outside ASCII or is not valid text; the extension of an image file is recognised in the same way.", "quantifier": "all disks that can be opened, all names of any bytes, all files put, with and without overwriting, all image names, orders, systems and formats", "why_tests_cant": "the comparison goes through Unicode's case tables, in which letters outside ASCII map to ASCII ones; a test tries a few ASCII names", "anchors": ["supermon/supermon.go:encodeSymbol", "supermon/supermon.go:SymbolTable.ByName", "supermon/supermon.go:SymbolTable.DeleteSymbol", "supermon/supermon.go:SymbolTable.AddSymbol", "supermon/supermon.go:SymbolTable.FileForName", "disk/open.go:OpenImage", "disk/open.go:OrderFromFilename"]}
{"id": "C112", "title": "Every line that ls prints is one file", "statement": "A listing has one line for every file of the disk, so that a program that reads it line by line sees as many files as there are; on a NakedOS disk the lines have only printable characters, and two disks with the same long listing have the same files with the same first symbols.", "quantifier": "all disks that can be opened, of the three systems, both kinds of listing", "why_tests_cant": "the names are bytes of the disk and are printed as they are; a test lists disks with ordinary names", "anchors": ["cmd/catalog.go:LsCmd.Run", "supermon/supermon.go:Operator.Catalog", "supermon/supermon.go:decodeSymbol", "dos3/dos3.go:FileDesc.FilenameString", "prodos/prodos.go:FileDescriptor.Name"]}
{"id": "C113", "title": "What the library takes in and hands out is a copy", "statement": "A program that opens a NakedOS or DOS 3.3 floppy image from a slice of bytes keeps that slice to itself: opening changes no memory that was there, and from then on, whatever the program puts, gets, deletes, saves, and writes into its own slices or into GetBytes, it sees what it would see if every slice were a value of its own. So the data GetFile gave never changes by later calls, writing into it or into the slice the image came from never changes the disk, and PutFile may be given a part of the disk itself.", "quantifier": "all contents of memory, all slices in it, all ways append may grow an array, all sequences of calls", "why_tests_cant": "two slices that share an array look the same until something writes through one of them, possibly much later; a test checks one sequence of calls", "anchors": ["disk/open.go:Swizzle", "disk/open.go:openDoOrPo", "disk/open.go:WriteBack", "disk/marshal.go:ReadSector", "disk/marshal.go:WriteSector", "supermon/supermon.go:LoadSectorMap", "supermon/supermon.go:SectorMap.ReadFile", "supermon/supermon.go:SectorMap.WriteFile", "supermon/supermon.go:SymbolTable.WriteSymbolTable", "supermon/supermon.go:Operator", "dos3/dos3.go:FileDesc.Contents", "dos3/dos3.go:operator.GetFile"]}
{"id": "C114", "title": "A program with many open disks", "statement": "A program may have any number of disks of all kinds open at once, opened from its own slices, from the bytes of other disks or from files, and slices of its own, and may put, get, delete and save, and write to its slices, cut them and append to them, in any order. It sees what it would see if every slice and every disk were a value of its own: opening an image twice gives two disks, putting the bytes of one disk on another copies them, and no call on one disk shows on another or in a slice of the program.", "quantifier": "all programs (sequences of calls) starting from nothing, all numbers and kinds of disks, all ways append may grow an array", "why_tests_cant": "whether two disks share memory shows only when one is written through and the other read, for some pair of disks and calls among all of them", "anchors": ["disk/open.go:OpenImage", "disk/open.go:OpenFile", "disk/open.go:openHDV", "disk/open.go:openDoOrPo", "disk/open.go:Swizzle", "disk/open.go:WriteBack", "types/types.go:Operator"]}
{"id": "C115", "title": "A command ends within a time bounded by the size of its files", "statement": "A command that ends at all ends in time: no loop of it takes more rounds than the image it opens, or the program it lists, has bytes. After that many rounds it is over, or it never will be, and giving it more time changes nothing. In particular reading a ProDOS volume takes no more rounds of a loop than the device has blocks.", "quantifier": "all commands, all arguments, all contents of files, all orders of visiting a map, all numbers of rounds", "why_tests_cant": "a test can show that one command on one image ends soon; an image on which a command takes 2^254 rounds cannot be told by a test from one on which it never ends", "anchors": ["prodos/prodos.go:readVolume", "prodos/prodos.go:readSubdirectory", "prodos/prodos.go:parentDirName", "prodos/prodos.go:Operator.Catalog", "disk/open.go:openDoOrPo", "basic/applesoft/applesoft.go:Decode", "cmd/catalog.go:LsCmd.Run"]}
{"id": "C116", "title": "A call that fails has changed nothing", "statement": "If PutFile or Delete of a NakedOS disk, WriteFile of a sector map, or writing a ProDOS volume bitmap returns an error, neither the image in memory nor what the operator knows about it has changed, so that the caller can go on using the operator or write the image back.", "quantifier": "all images of 143360 bytes that can be opened, all names, contents, types, lengths and file numbers, all bitmaps and devices", "why_tests_cant": "the failures that leave traces need a symbol table that can be read and not written, a full table, a number that is none of a file, or a bitmap that runs over the end of the device; tests check the error returned, not every byte behind it", "anchors": ["supermon/supermon.go:Operator.PutFile", "supermon/supermon.go:Operator.Delete", "supermon/supermon.go:SectorMap.WriteFile", "supermon/supermon.go:SectorMap.WriteSymbolTable", "prodos/prodos.go:VolumeBitMap.Write"]}
{"id": "C117", "title": "The kind of an error tells its reason", "statement": "An error of GetFile, Delete or PutFile is recognised as file-not-found exactly if the file that the name asks for is not there, as out-of-space exactly if the file takes more sectors than there are for it, and as file-exists exactly if there is room, but the file is there and may not be overwritten.", "quantifier": "all images that can be opened, all names, contents and permissions", "why_tests_cant": "the kinds depend on the whole image, on the order of the checks and on how errors are wrapped on their way out; tests look at single calls", "anchors": ["supermon/supermon.go:Operator.GetFile", "supermon/supermon.go:Operator.Delete", "supermon/supermon.go:Operator.PutFile", "supermon/supermon.go:SectorMap.WriteFile", "supermon/supermon.go:SymbolTable.FileForName", "dos3/dos3.go:operator.GetFile", "errors/errors.go:IsFileNotFound"]}
