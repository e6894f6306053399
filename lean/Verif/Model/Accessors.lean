import Verif.Model.Proto
import Verif.Lib.StrLit
/-!
# Model: the accessors of the generated messages (`src/stringpbf/fileformat.rs`, `src/stringpbf/osmformat.rs`)

`src/arcpbf` has identical copies of both files. `&mut self` becomes a message that is returned; a `mut_` function, which lends the field, takes what the
borrower does with it. Unknown fields are left out, as in `Verif.Model.Proto`. Generated by `tools/genaccess.py`.
-/

namespace Osmio.Proto

/-- `src/stringpbf/fileformat.rs:49-51` -/
def BlobHeader.new : BlobHeader := {}
/-- `src/stringpbf/fileformat.rs:55-60` -/
def BlobHeader.getType (m : BlobHeader) : Str := m.type_.getD []
/-- `src/stringpbf/fileformat.rs:62-64` -/
def BlobHeader.clearType (m : BlobHeader) : BlobHeader := { m with type_ := none }
/-- `src/stringpbf/fileformat.rs:66-68` -/
def BlobHeader.hasType (m : BlobHeader) : Bool := m.type_.isSome
/-- `src/stringpbf/fileformat.rs:71-73` -/
def BlobHeader.setType (m : BlobHeader) (v : Str) : BlobHeader := { m with type_ := some v }
/-- `src/stringpbf/fileformat.rs:77-82` -/
def BlobHeader.mutType (m : BlobHeader) (f : Str → Str) : BlobHeader :=
  let m := if m.type_ = none then { m with type_ := some [] } else m
  { m with type_ := m.type_.map f }
/-- `src/stringpbf/fileformat.rs:85-87` -/
def BlobHeader.takeType (m : BlobHeader) : Str × BlobHeader := (m.type_.getD [], { m with type_ := none })
/-- `src/stringpbf/fileformat.rs:91-96` -/
def BlobHeader.getIndexdata (m : BlobHeader) : Bytes := m.indexdata.getD []
/-- `src/stringpbf/fileformat.rs:98-100` -/
def BlobHeader.clearIndexdata (m : BlobHeader) : BlobHeader := { m with indexdata := none }
/-- `src/stringpbf/fileformat.rs:102-104` -/
def BlobHeader.hasIndexdata (m : BlobHeader) : Bool := m.indexdata.isSome
/-- `src/stringpbf/fileformat.rs:107-109` -/
def BlobHeader.setIndexdata (m : BlobHeader) (v : Bytes) : BlobHeader := { m with indexdata := some v }
/-- `src/stringpbf/fileformat.rs:113-118` -/
def BlobHeader.mutIndexdata (m : BlobHeader) (f : Bytes → Bytes) : BlobHeader :=
  let m := if m.indexdata = none then { m with indexdata := some [] } else m
  { m with indexdata := m.indexdata.map f }
/-- `src/stringpbf/fileformat.rs:121-123` -/
def BlobHeader.takeIndexdata (m : BlobHeader) : Bytes × BlobHeader := (m.indexdata.getD [], { m with indexdata := none })
/-- `src/stringpbf/fileformat.rs:127-129` -/
def BlobHeader.getDatasize (m : BlobHeader) : Int32 := m.datasize.getD 0
/-- `src/stringpbf/fileformat.rs:131-133` -/
def BlobHeader.clearDatasize (m : BlobHeader) : BlobHeader := { m with datasize := none }
/-- `src/stringpbf/fileformat.rs:135-137` -/
def BlobHeader.hasDatasize (m : BlobHeader) : Bool := m.datasize.isSome
/-- `src/stringpbf/fileformat.rs:140-142` -/
def BlobHeader.setDatasize (m : BlobHeader) (v : Int32) : BlobHeader := { m with datasize := some v }
/-- `src/stringpbf/fileformat.rs:247-252` -/
def BlobHeader.clear (m : BlobHeader) : BlobHeader := { m with type_ := none, indexdata := none, datasize := none }
/-- `src/stringpbf/fileformat.rs:254-262` -/
def BlobHeader.defaultInstance : BlobHeader := { type_ := none, indexdata := none, datasize := none }

/-- `src/stringpbf/fileformat.rs:311-313` -/
def Blob.new : Blob := {}
/-- `src/stringpbf/fileformat.rs:317-322` -/
def Blob.getRaw (m : Blob) : Bytes := m.raw.getD []
/-- `src/stringpbf/fileformat.rs:324-326` -/
def Blob.clearRaw (m : Blob) : Blob := { m with raw := none }
/-- `src/stringpbf/fileformat.rs:328-330` -/
def Blob.hasRaw (m : Blob) : Bool := m.raw.isSome
/-- `src/stringpbf/fileformat.rs:333-335` -/
def Blob.setRaw (m : Blob) (v : Bytes) : Blob := { m with raw := some v }
/-- `src/stringpbf/fileformat.rs:339-344` -/
def Blob.mutRaw (m : Blob) (f : Bytes → Bytes) : Blob :=
  let m := if m.raw = none then { m with raw := some [] } else m
  { m with raw := m.raw.map f }
/-- `src/stringpbf/fileformat.rs:347-349` -/
def Blob.takeRaw (m : Blob) : Bytes × Blob := (m.raw.getD [], { m with raw := none })
/-- `src/stringpbf/fileformat.rs:353-355` -/
def Blob.getRawSize (m : Blob) : Int32 := m.rawSize.getD 0
/-- `src/stringpbf/fileformat.rs:357-359` -/
def Blob.clearRawSize (m : Blob) : Blob := { m with rawSize := none }
/-- `src/stringpbf/fileformat.rs:361-363` -/
def Blob.hasRawSize (m : Blob) : Bool := m.rawSize.isSome
/-- `src/stringpbf/fileformat.rs:366-368` -/
def Blob.setRawSize (m : Blob) (v : Int32) : Blob := { m with rawSize := some v }
/-- `src/stringpbf/fileformat.rs:372-377` -/
def Blob.getZlibData (m : Blob) : Bytes := m.zlibData.getD []
/-- `src/stringpbf/fileformat.rs:379-381` -/
def Blob.clearZlibData (m : Blob) : Blob := { m with zlibData := none }
/-- `src/stringpbf/fileformat.rs:383-385` -/
def Blob.hasZlibData (m : Blob) : Bool := m.zlibData.isSome
/-- `src/stringpbf/fileformat.rs:388-390` -/
def Blob.setZlibData (m : Blob) (v : Bytes) : Blob := { m with zlibData := some v }
/-- `src/stringpbf/fileformat.rs:394-399` -/
def Blob.mutZlibData (m : Blob) (f : Bytes → Bytes) : Blob :=
  let m := if m.zlibData = none then { m with zlibData := some [] } else m
  { m with zlibData := m.zlibData.map f }
/-- `src/stringpbf/fileformat.rs:402-404` -/
def Blob.takeZlibData (m : Blob) : Bytes × Blob := (m.zlibData.getD [], { m with zlibData := none })
/-- `src/stringpbf/fileformat.rs:408-413` -/
def Blob.getLzmaData (m : Blob) : Bytes := m.lzmaData.getD []
/-- `src/stringpbf/fileformat.rs:415-417` -/
def Blob.clearLzmaData (m : Blob) : Blob := { m with lzmaData := none }
/-- `src/stringpbf/fileformat.rs:419-421` -/
def Blob.hasLzmaData (m : Blob) : Bool := m.lzmaData.isSome
/-- `src/stringpbf/fileformat.rs:424-426` -/
def Blob.setLzmaData (m : Blob) (v : Bytes) : Blob := { m with lzmaData := some v }
/-- `src/stringpbf/fileformat.rs:430-435` -/
def Blob.mutLzmaData (m : Blob) (f : Bytes → Bytes) : Blob :=
  let m := if m.lzmaData = none then { m with lzmaData := some [] } else m
  { m with lzmaData := m.lzmaData.map f }
/-- `src/stringpbf/fileformat.rs:438-440` -/
def Blob.takeLzmaData (m : Blob) : Bytes × Blob := (m.lzmaData.getD [], { m with lzmaData := none })
/-- `src/stringpbf/fileformat.rs:444-449` -/
def Blob.getObsoleteBzip2Data (m : Blob) : Bytes := m.obsoleteBzip2Data.getD []
/-- `src/stringpbf/fileformat.rs:451-453` -/
def Blob.clearObsoleteBzip2Data (m : Blob) : Blob := { m with obsoleteBzip2Data := none }
/-- `src/stringpbf/fileformat.rs:455-457` -/
def Blob.hasObsoleteBzip2Data (m : Blob) : Bool := m.obsoleteBzip2Data.isSome
/-- `src/stringpbf/fileformat.rs:460-462` -/
def Blob.setObsoleteBzip2Data (m : Blob) (v : Bytes) : Blob := { m with obsoleteBzip2Data := some v }
/-- `src/stringpbf/fileformat.rs:466-471` -/
def Blob.mutObsoleteBzip2Data (m : Blob) (f : Bytes → Bytes) : Blob :=
  let m := if m.obsoleteBzip2Data = none then { m with obsoleteBzip2Data := some [] } else m
  { m with obsoleteBzip2Data := m.obsoleteBzip2Data.map f }
/-- `src/stringpbf/fileformat.rs:474-476` -/
def Blob.takeObsoleteBzip2Data (m : Blob) : Bytes × Blob := (m.obsoleteBzip2Data.getD [], { m with obsoleteBzip2Data := none })
/-- `src/stringpbf/fileformat.rs:603-610` -/
def Blob.clear (m : Blob) : Blob := { m with raw := none, rawSize := none, zlibData := none, lzmaData := none, obsoleteBzip2Data := none }
/-- `src/stringpbf/fileformat.rs:612-622` -/
def Blob.defaultInstance : Blob := { raw := none, rawSize := none, zlibData := none, lzmaData := none, obsoleteBzip2Data := none }

/-- `src/stringpbf/osmformat.rs:66-68` -/
def HeaderBlock.new : HeaderBlock := {}
/-- `src/stringpbf/osmformat.rs:72-77` -/
def HeaderBlock.getWritingprogram (m : HeaderBlock) : Str := m.writingprogram.getD []
/-- `src/stringpbf/osmformat.rs:79-81` -/
def HeaderBlock.clearWritingprogram (m : HeaderBlock) : HeaderBlock := { m with writingprogram := none }
/-- `src/stringpbf/osmformat.rs:83-85` -/
def HeaderBlock.hasWritingprogram (m : HeaderBlock) : Bool := m.writingprogram.isSome
/-- `src/stringpbf/osmformat.rs:88-90` -/
def HeaderBlock.setWritingprogram (m : HeaderBlock) (v : Str) : HeaderBlock := { m with writingprogram := some v }
/-- `src/stringpbf/osmformat.rs:94-99` -/
def HeaderBlock.mutWritingprogram (m : HeaderBlock) (f : Str → Str) : HeaderBlock :=
  let m := if m.writingprogram = none then { m with writingprogram := some [] } else m
  { m with writingprogram := m.writingprogram.map f }
/-- `src/stringpbf/osmformat.rs:102-104` -/
def HeaderBlock.takeWritingprogram (m : HeaderBlock) : Str × HeaderBlock := (m.writingprogram.getD [], { m with writingprogram := none })
/-- `src/stringpbf/osmformat.rs:108-113` -/
def HeaderBlock.getSource (m : HeaderBlock) : Str := m.source.getD []
/-- `src/stringpbf/osmformat.rs:115-117` -/
def HeaderBlock.clearSource (m : HeaderBlock) : HeaderBlock := { m with source := none }
/-- `src/stringpbf/osmformat.rs:119-121` -/
def HeaderBlock.hasSource (m : HeaderBlock) : Bool := m.source.isSome
/-- `src/stringpbf/osmformat.rs:124-126` -/
def HeaderBlock.setSource (m : HeaderBlock) (v : Str) : HeaderBlock := { m with source := some v }
/-- `src/stringpbf/osmformat.rs:130-135` -/
def HeaderBlock.mutSource (m : HeaderBlock) (f : Str → Str) : HeaderBlock :=
  let m := if m.source = none then { m with source := some [] } else m
  { m with source := m.source.map f }
/-- `src/stringpbf/osmformat.rs:138-140` -/
def HeaderBlock.takeSource (m : HeaderBlock) : Str × HeaderBlock := (m.source.getD [], { m with source := none })
/-- `src/stringpbf/osmformat.rs:144-146` -/
def HeaderBlock.getOsmosisReplicationTimestamp (m : HeaderBlock) : Int64 := m.osmosisReplicationTimestamp.getD 0
/-- `src/stringpbf/osmformat.rs:148-150` -/
def HeaderBlock.clearOsmosisReplicationTimestamp (m : HeaderBlock) : HeaderBlock := { m with osmosisReplicationTimestamp := none }
/-- `src/stringpbf/osmformat.rs:152-154` -/
def HeaderBlock.hasOsmosisReplicationTimestamp (m : HeaderBlock) : Bool := m.osmosisReplicationTimestamp.isSome
/-- `src/stringpbf/osmformat.rs:157-159` -/
def HeaderBlock.setOsmosisReplicationTimestamp (m : HeaderBlock) (v : Int64) : HeaderBlock := { m with osmosisReplicationTimestamp := some v }
/-- `src/stringpbf/osmformat.rs:163-165` -/
def HeaderBlock.getOsmosisReplicationSequenceNumber (m : HeaderBlock) : Int64 := m.osmosisReplicationSequenceNumber.getD 0
/-- `src/stringpbf/osmformat.rs:167-169` -/
def HeaderBlock.clearOsmosisReplicationSequenceNumber (m : HeaderBlock) : HeaderBlock := { m with osmosisReplicationSequenceNumber := none }
/-- `src/stringpbf/osmformat.rs:171-173` -/
def HeaderBlock.hasOsmosisReplicationSequenceNumber (m : HeaderBlock) : Bool := m.osmosisReplicationSequenceNumber.isSome
/-- `src/stringpbf/osmformat.rs:176-178` -/
def HeaderBlock.setOsmosisReplicationSequenceNumber (m : HeaderBlock) (v : Int64) : HeaderBlock := { m with osmosisReplicationSequenceNumber := some v }
/-- `src/stringpbf/osmformat.rs:182-187` -/
def HeaderBlock.getOsmosisReplicationBaseUrl (m : HeaderBlock) : Str := m.osmosisReplicationBaseUrl.getD []
/-- `src/stringpbf/osmformat.rs:189-191` -/
def HeaderBlock.clearOsmosisReplicationBaseUrl (m : HeaderBlock) : HeaderBlock := { m with osmosisReplicationBaseUrl := none }
/-- `src/stringpbf/osmformat.rs:193-195` -/
def HeaderBlock.hasOsmosisReplicationBaseUrl (m : HeaderBlock) : Bool := m.osmosisReplicationBaseUrl.isSome
/-- `src/stringpbf/osmformat.rs:198-200` -/
def HeaderBlock.setOsmosisReplicationBaseUrl (m : HeaderBlock) (v : Str) : HeaderBlock := { m with osmosisReplicationBaseUrl := some v }
/-- `src/stringpbf/osmformat.rs:204-209` -/
def HeaderBlock.mutOsmosisReplicationBaseUrl (m : HeaderBlock) (f : Str → Str) : HeaderBlock :=
  let m := if m.osmosisReplicationBaseUrl = none then { m with osmosisReplicationBaseUrl := some [] } else m
  { m with osmosisReplicationBaseUrl := m.osmosisReplicationBaseUrl.map f }
/-- `src/stringpbf/osmformat.rs:212-214` -/
def HeaderBlock.takeOsmosisReplicationBaseUrl (m : HeaderBlock) : Str × HeaderBlock := (m.osmosisReplicationBaseUrl.getD [], { m with osmosisReplicationBaseUrl := none })
/-- `src/stringpbf/osmformat.rs:339-349` -/
def HeaderBlock.clear (m : HeaderBlock) : HeaderBlock := { m with bbox := none, requiredFeatures := [], optionalFeatures := [], writingprogram := none, source := none, osmosisReplicationTimestamp := none, osmosisReplicationSequenceNumber := none, osmosisReplicationBaseUrl := none }
/-- `src/stringpbf/osmformat.rs:351-364` -/
def HeaderBlock.defaultInstance : HeaderBlock := { bbox := none, requiredFeatures := [], optionalFeatures := [], writingprogram := none, source := none, osmosisReplicationTimestamp := none, osmosisReplicationSequenceNumber := none, osmosisReplicationBaseUrl := none }

/-- `src/stringpbf/osmformat.rs:391-393` -/
def HeaderBBox.new : HeaderBBox := {}
/-- `src/stringpbf/osmformat.rs:397-399` -/
def HeaderBBox.getLeft (m : HeaderBBox) : Int64 := m.left.getD 0
/-- `src/stringpbf/osmformat.rs:401-403` -/
def HeaderBBox.clearLeft (m : HeaderBBox) : HeaderBBox := { m with left := none }
/-- `src/stringpbf/osmformat.rs:405-407` -/
def HeaderBBox.hasLeft (m : HeaderBBox) : Bool := m.left.isSome
/-- `src/stringpbf/osmformat.rs:410-412` -/
def HeaderBBox.setLeft (m : HeaderBBox) (v : Int64) : HeaderBBox := { m with left := some v }
/-- `src/stringpbf/osmformat.rs:416-418` -/
def HeaderBBox.getRight (m : HeaderBBox) : Int64 := m.right.getD 0
/-- `src/stringpbf/osmformat.rs:420-422` -/
def HeaderBBox.clearRight (m : HeaderBBox) : HeaderBBox := { m with right := none }
/-- `src/stringpbf/osmformat.rs:424-426` -/
def HeaderBBox.hasRight (m : HeaderBBox) : Bool := m.right.isSome
/-- `src/stringpbf/osmformat.rs:429-431` -/
def HeaderBBox.setRight (m : HeaderBBox) (v : Int64) : HeaderBBox := { m with right := some v }
/-- `src/stringpbf/osmformat.rs:435-437` -/
def HeaderBBox.getTop (m : HeaderBBox) : Int64 := m.top.getD 0
/-- `src/stringpbf/osmformat.rs:439-441` -/
def HeaderBBox.clearTop (m : HeaderBBox) : HeaderBBox := { m with top := none }
/-- `src/stringpbf/osmformat.rs:443-445` -/
def HeaderBBox.hasTop (m : HeaderBBox) : Bool := m.top.isSome
/-- `src/stringpbf/osmformat.rs:448-450` -/
def HeaderBBox.setTop (m : HeaderBBox) (v : Int64) : HeaderBBox := { m with top := some v }
/-- `src/stringpbf/osmformat.rs:454-456` -/
def HeaderBBox.getBottom (m : HeaderBBox) : Int64 := m.bottom.getD 0
/-- `src/stringpbf/osmformat.rs:458-460` -/
def HeaderBBox.clearBottom (m : HeaderBBox) : HeaderBBox := { m with bottom := none }
/-- `src/stringpbf/osmformat.rs:462-464` -/
def HeaderBBox.hasBottom (m : HeaderBBox) : Bool := m.bottom.isSome
/-- `src/stringpbf/osmformat.rs:467-469` -/
def HeaderBBox.setBottom (m : HeaderBBox) (v : Int64) : HeaderBBox := { m with bottom := some v }
/-- `src/stringpbf/osmformat.rs:564-570` -/
def HeaderBBox.clear (m : HeaderBBox) : HeaderBBox := { m with left := none, right := none, top := none, bottom := none }
/-- `src/stringpbf/osmformat.rs:572-581` -/
def HeaderBBox.defaultInstance : HeaderBBox := { left := none, right := none, top := none, bottom := none }

/-- `src/stringpbf/osmformat.rs:615-617` -/
def PrimitiveBlock.new : PrimitiveBlock := {}
/-- `src/stringpbf/osmformat.rs:621-623` -/
def PrimitiveBlock.getGranularity (m : PrimitiveBlock) : Int32 := m.granularity.getD 100
/-- `src/stringpbf/osmformat.rs:625-627` -/
def PrimitiveBlock.clearGranularity (m : PrimitiveBlock) : PrimitiveBlock := { m with granularity := none }
/-- `src/stringpbf/osmformat.rs:629-631` -/
def PrimitiveBlock.hasGranularity (m : PrimitiveBlock) : Bool := m.granularity.isSome
/-- `src/stringpbf/osmformat.rs:634-636` -/
def PrimitiveBlock.setGranularity (m : PrimitiveBlock) (v : Int32) : PrimitiveBlock := { m with granularity := some v }
/-- `src/stringpbf/osmformat.rs:640-642` -/
def PrimitiveBlock.getLatOffset (m : PrimitiveBlock) : Int64 := m.latOffset.getD 0
/-- `src/stringpbf/osmformat.rs:644-646` -/
def PrimitiveBlock.clearLatOffset (m : PrimitiveBlock) : PrimitiveBlock := { m with latOffset := none }
/-- `src/stringpbf/osmformat.rs:648-650` -/
def PrimitiveBlock.hasLatOffset (m : PrimitiveBlock) : Bool := m.latOffset.isSome
/-- `src/stringpbf/osmformat.rs:653-655` -/
def PrimitiveBlock.setLatOffset (m : PrimitiveBlock) (v : Int64) : PrimitiveBlock := { m with latOffset := some v }
/-- `src/stringpbf/osmformat.rs:659-661` -/
def PrimitiveBlock.getLonOffset (m : PrimitiveBlock) : Int64 := m.lonOffset.getD 0
/-- `src/stringpbf/osmformat.rs:663-665` -/
def PrimitiveBlock.clearLonOffset (m : PrimitiveBlock) : PrimitiveBlock := { m with lonOffset := none }
/-- `src/stringpbf/osmformat.rs:667-669` -/
def PrimitiveBlock.hasLonOffset (m : PrimitiveBlock) : Bool := m.lonOffset.isSome
/-- `src/stringpbf/osmformat.rs:672-674` -/
def PrimitiveBlock.setLonOffset (m : PrimitiveBlock) (v : Int64) : PrimitiveBlock := { m with lonOffset := some v }
/-- `src/stringpbf/osmformat.rs:678-680` -/
def PrimitiveBlock.getDateGranularity (m : PrimitiveBlock) : Int32 := m.dateGranularity.getD 1000
/-- `src/stringpbf/osmformat.rs:682-684` -/
def PrimitiveBlock.clearDateGranularity (m : PrimitiveBlock) : PrimitiveBlock := { m with dateGranularity := none }
/-- `src/stringpbf/osmformat.rs:686-688` -/
def PrimitiveBlock.hasDateGranularity (m : PrimitiveBlock) : Bool := m.dateGranularity.isSome
/-- `src/stringpbf/osmformat.rs:691-693` -/
def PrimitiveBlock.setDateGranularity (m : PrimitiveBlock) (v : Int32) : PrimitiveBlock := { m with dateGranularity := some v }
/-- `src/stringpbf/osmformat.rs:809-817` -/
def PrimitiveBlock.clear (m : PrimitiveBlock) : PrimitiveBlock := { m with stringtable := none, primitivegroup := [], granularity := none, latOffset := none, lonOffset := none, dateGranularity := none }
/-- `src/stringpbf/osmformat.rs:819-830` -/
def PrimitiveBlock.defaultInstance : PrimitiveBlock := { stringtable := none, primitivegroup := [], granularity := none, latOffset := none, lonOffset := none, dateGranularity := none }

/-- `src/stringpbf/osmformat.rs:860-862` -/
def PrimitiveGroup.new : PrimitiveGroup := {}
/-- `src/stringpbf/osmformat.rs:984-991` -/
def PrimitiveGroup.clear (m : PrimitiveGroup) : PrimitiveGroup := { m with nodes := [], dense := none, ways := [], relations := [], changesets := [] }
/-- `src/stringpbf/osmformat.rs:993-1003` -/
def PrimitiveGroup.defaultInstance : PrimitiveGroup := { nodes := [], dense := none, ways := [], relations := [], changesets := [] }

/-- `src/stringpbf/osmformat.rs:1029-1031` -/
def StringTable.new : StringTable := {}
/-- `src/stringpbf/osmformat.rs:1087-1090` -/
def StringTable.clear (m : StringTable) : StringTable := { m with s := [] }
/-- `src/stringpbf/osmformat.rs:1092-1098` -/
def StringTable.defaultInstance : StringTable := { s := [] }

/-- `src/stringpbf/osmformat.rs:1138-1140` -/
def Info.new : Info := {}
/-- `src/stringpbf/osmformat.rs:1144-1146` -/
def Info.getVersion (m : Info) : Int32 := m.version.getD (-1)
/-- `src/stringpbf/osmformat.rs:1148-1150` -/
def Info.clearVersion (m : Info) : Info := { m with version := none }
/-- `src/stringpbf/osmformat.rs:1152-1154` -/
def Info.hasVersion (m : Info) : Bool := m.version.isSome
/-- `src/stringpbf/osmformat.rs:1157-1159` -/
def Info.setVersion (m : Info) (v : Int32) : Info := { m with version := some v }
/-- `src/stringpbf/osmformat.rs:1163-1165` -/
def Info.getTimestamp (m : Info) : Int64 := m.timestamp.getD 0
/-- `src/stringpbf/osmformat.rs:1167-1169` -/
def Info.clearTimestamp (m : Info) : Info := { m with timestamp := none }
/-- `src/stringpbf/osmformat.rs:1171-1173` -/
def Info.hasTimestamp (m : Info) : Bool := m.timestamp.isSome
/-- `src/stringpbf/osmformat.rs:1176-1178` -/
def Info.setTimestamp (m : Info) (v : Int64) : Info := { m with timestamp := some v }
/-- `src/stringpbf/osmformat.rs:1182-1184` -/
def Info.getChangeset (m : Info) : Int64 := m.changeset.getD 0
/-- `src/stringpbf/osmformat.rs:1186-1188` -/
def Info.clearChangeset (m : Info) : Info := { m with changeset := none }
/-- `src/stringpbf/osmformat.rs:1190-1192` -/
def Info.hasChangeset (m : Info) : Bool := m.changeset.isSome
/-- `src/stringpbf/osmformat.rs:1195-1197` -/
def Info.setChangeset (m : Info) (v : Int64) : Info := { m with changeset := some v }
/-- `src/stringpbf/osmformat.rs:1201-1203` -/
def Info.getUid (m : Info) : Int32 := m.uid.getD 0
/-- `src/stringpbf/osmformat.rs:1205-1207` -/
def Info.clearUid (m : Info) : Info := { m with uid := none }
/-- `src/stringpbf/osmformat.rs:1209-1211` -/
def Info.hasUid (m : Info) : Bool := m.uid.isSome
/-- `src/stringpbf/osmformat.rs:1214-1216` -/
def Info.setUid (m : Info) (v : Int32) : Info := { m with uid := some v }
/-- `src/stringpbf/osmformat.rs:1220-1222` -/
def Info.getUserSid (m : Info) : UInt32 := m.userSid.getD 0
/-- `src/stringpbf/osmformat.rs:1224-1226` -/
def Info.clearUserSid (m : Info) : Info := { m with userSid := none }
/-- `src/stringpbf/osmformat.rs:1228-1230` -/
def Info.hasUserSid (m : Info) : Bool := m.userSid.isSome
/-- `src/stringpbf/osmformat.rs:1233-1235` -/
def Info.setUserSid (m : Info) (v : UInt32) : Info := { m with userSid := some v }
/-- `src/stringpbf/osmformat.rs:1239-1241` -/
def Info.getVisible (m : Info) : Bool := m.visible.getD false
/-- `src/stringpbf/osmformat.rs:1243-1245` -/
def Info.clearVisible (m : Info) : Info := { m with visible := none }
/-- `src/stringpbf/osmformat.rs:1247-1249` -/
def Info.hasVisible (m : Info) : Bool := m.visible.isSome
/-- `src/stringpbf/osmformat.rs:1252-1254` -/
def Info.setVisible (m : Info) (v : Bool) : Info := { m with visible := some v }
/-- `src/stringpbf/osmformat.rs:1355-1363` -/
def Info.clear (m : Info) : Info := { m with version := none, timestamp := none, changeset := none, uid := none, userSid := none, visible := none }
/-- `src/stringpbf/osmformat.rs:1365-1376` -/
def Info.defaultInstance : Info := { version := none, timestamp := none, changeset := none, uid := none, userSid := none, visible := none }

/-- `src/stringpbf/osmformat.rs:1416-1418` -/
def DenseInfo.new : DenseInfo := {}
/-- `src/stringpbf/osmformat.rs:1513-1521` -/
def DenseInfo.clear (m : DenseInfo) : DenseInfo := { m with version := [], timestamp := [], changeset := [], uid := [], userSid := [], visible := [] }
/-- `src/stringpbf/osmformat.rs:1523-1534` -/
def DenseInfo.defaultInstance : DenseInfo := { version := [], timestamp := [], changeset := [], uid := [], userSid := [], visible := [] }

/-- `src/stringpbf/osmformat.rs:1557-1559` -/
def ChangeSet.new : ChangeSet := {}
/-- `src/stringpbf/osmformat.rs:1563-1565` -/
def ChangeSet.getId (m : ChangeSet) : Int64 := m.id.getD 0
/-- `src/stringpbf/osmformat.rs:1567-1569` -/
def ChangeSet.clearId (m : ChangeSet) : ChangeSet := { m with id := none }
/-- `src/stringpbf/osmformat.rs:1571-1573` -/
def ChangeSet.hasId (m : ChangeSet) : Bool := m.id.isSome
/-- `src/stringpbf/osmformat.rs:1576-1578` -/
def ChangeSet.setId (m : ChangeSet) (v : Int64) : ChangeSet := { m with id := some v }
/-- `src/stringpbf/osmformat.rs:1637-1640` -/
def ChangeSet.clear (m : ChangeSet) : ChangeSet := { m with id := none }
/-- `src/stringpbf/osmformat.rs:1642-1648` -/
def ChangeSet.defaultInstance : ChangeSet := { id := none }

/-- `src/stringpbf/osmformat.rs:1680-1682` -/
def Node.new : Node := {}
/-- `src/stringpbf/osmformat.rs:1686-1688` -/
def Node.getId (m : Node) : Int64 := m.id.getD 0
/-- `src/stringpbf/osmformat.rs:1690-1692` -/
def Node.clearId (m : Node) : Node := { m with id := none }
/-- `src/stringpbf/osmformat.rs:1694-1696` -/
def Node.hasId (m : Node) : Bool := m.id.isSome
/-- `src/stringpbf/osmformat.rs:1699-1701` -/
def Node.setId (m : Node) (v : Int64) : Node := { m with id := some v }
/-- `src/stringpbf/osmformat.rs:1705-1707` -/
def Node.getLat (m : Node) : Int64 := m.lat.getD 0
/-- `src/stringpbf/osmformat.rs:1709-1711` -/
def Node.clearLat (m : Node) : Node := { m with lat := none }
/-- `src/stringpbf/osmformat.rs:1713-1715` -/
def Node.hasLat (m : Node) : Bool := m.lat.isSome
/-- `src/stringpbf/osmformat.rs:1718-1720` -/
def Node.setLat (m : Node) (v : Int64) : Node := { m with lat := some v }
/-- `src/stringpbf/osmformat.rs:1724-1726` -/
def Node.getLon (m : Node) : Int64 := m.lon.getD 0
/-- `src/stringpbf/osmformat.rs:1728-1730` -/
def Node.clearLon (m : Node) : Node := { m with lon := none }
/-- `src/stringpbf/osmformat.rs:1732-1734` -/
def Node.hasLon (m : Node) : Bool := m.lon.isSome
/-- `src/stringpbf/osmformat.rs:1737-1739` -/
def Node.setLon (m : Node) (v : Int64) : Node := { m with lon := some v }
/-- `src/stringpbf/osmformat.rs:1853-1861` -/
def Node.clear (m : Node) : Node := { m with id := none, keys := [], vals := [], info := none, lat := none, lon := none }
/-- `src/stringpbf/osmformat.rs:1863-1874` -/
def Node.defaultInstance : Node := { id := none, keys := [], vals := [], info := none, lat := none, lon := none }

/-- `src/stringpbf/osmformat.rs:1905-1907` -/
def DenseNodes.new : DenseNodes := {}
/-- `src/stringpbf/osmformat.rs:1996-2003` -/
def DenseNodes.clear (m : DenseNodes) : DenseNodes := { m with id := [], denseinfo := none, lat := [], lon := [], keysVals := [] }
/-- `src/stringpbf/osmformat.rs:2005-2015` -/
def DenseNodes.defaultInstance : DenseNodes := { id := [], denseinfo := none, lat := [], lon := [], keysVals := [] }

/-- `src/stringpbf/osmformat.rs:2045-2047` -/
def Way.new : Way := {}
/-- `src/stringpbf/osmformat.rs:2051-2053` -/
def Way.getId (m : Way) : Int64 := m.id.getD 0
/-- `src/stringpbf/osmformat.rs:2055-2057` -/
def Way.clearId (m : Way) : Way := { m with id := none }
/-- `src/stringpbf/osmformat.rs:2059-2061` -/
def Way.hasId (m : Way) : Bool := m.id.isSome
/-- `src/stringpbf/osmformat.rs:2064-2066` -/
def Way.setId (m : Way) (v : Int64) : Way := { m with id := some v }
/-- `src/stringpbf/osmformat.rs:2164-2171` -/
def Way.clear (m : Way) : Way := { m with id := none, keys := [], vals := [], info := none, refs := [] }
/-- `src/stringpbf/osmformat.rs:2173-2183` -/
def Way.defaultInstance : Way := { id := none, keys := [], vals := [], info := none, refs := [] }

/-- `src/stringpbf/osmformat.rs:2218-2220` -/
def Relation.new : Relation := {}
/-- `src/stringpbf/osmformat.rs:2224-2226` -/
def Relation.getId (m : Relation) : Int64 := m.id.getD 0
/-- `src/stringpbf/osmformat.rs:2228-2230` -/
def Relation.clearId (m : Relation) : Relation := { m with id := none }
/-- `src/stringpbf/osmformat.rs:2232-2234` -/
def Relation.hasId (m : Relation) : Bool := m.id.isSome
/-- `src/stringpbf/osmformat.rs:2237-2239` -/
def Relation.setId (m : Relation) (v : Int64) : Relation := { m with id := some v }
/-- `src/stringpbf/osmformat.rs:2353-2362` -/
def Relation.clear (m : Relation) : Relation := { m with id := none, keys := [], vals := [], info := none, rolesSid := [], memids := [], types := [] }
/-- `src/stringpbf/osmformat.rs:2364-2376` -/
def Relation.defaultInstance : Relation := { id := none, keys := [], vals := [], info := none, rolesSid := [], memids := [], types := [] }

/-- `src/stringpbf/osmformat.rs:2383-2390` -/
inductive MemberType where
  | node
  | way
  | relation
  deriving DecidableEq

/-- `src/stringpbf/osmformat.rs:2395-2397` -/
def MemberType.value : MemberType → Int32
  | .node => 0
  | .way => 1
  | .relation => 2
/-- `src/stringpbf/osmformat.rs:2399-2406` -/
def MemberType.fromI32 (value : Int32) : Option MemberType :=
  if value = 0 then some .node else if value = 1 then some .way else if value = 2 then some .relation else none
/-- `src/stringpbf/osmformat.rs:2408-2415` -/
def MemberType.fromStr (s : Str) : Option MemberType :=
  if s = str% "NODE" then some .node else if s = str% "WAY" then some .way else if s = str% "RELATION" then some .relation else none
/-- `src/stringpbf/osmformat.rs:2417-2421` -/
def MemberType.values : List MemberType := [.node, .way, .relation]
/-- `src/stringpbf/osmformat.rs:2425-2427` -/
def MemberType.default : MemberType := .node

end Osmio.Proto
