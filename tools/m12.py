import json
M=[]
def m(d,f,o,n,e,b): M.append({"def":d,"file":"Model/"+f+".lean","old":o,"new":n,"edit":e,"breaks":b})
T="SpriteTree"
m("area",T,"if a.w = none ∨ (a.h = none ∧ x = 0 ∧ y = 0) then some (img.w, img.h)\n  else match","if a.w = none then some (img.w, img.h)\n  else match","height left out is never filled in","the whole picture is taken if the size is left out (C72)")
m("getImage",T,"x + w > img.w ∨ y + h > img.h","x + w ≥ img.w ∨ y + h ≥ img.h","area up to the edge refused","a FileSprite is accepted exactly if inside (C72)")
m("getImage",T,"window x.toNat y.toNat w.toNat h.toNat img.px","window y.toNat x.toNat w.toNat h.toNat img.px","coordinates swapped","each pixel is the picture's at its place (C72)")
m("getImage",T,"if img.bpp = 8 then none else some (a.w, a.h, { L.quantize img with bpp := 8 })","some (a.w, a.h, { L.quantize img with bpp := 8 })","palette pictures quantized too","(C71: quantize of 8bpp is refused)")
m("applyKey",T,"if isKey key p then 0 else a","if isKey key p then a else 0","key inverted","exactly the key colour becomes invisible (C72)")
m("applyKey",T,"(List.replicate w.toNat 255)","(List.replicate w.toNat 0)","other pixels invisible without alpha","other pixels keep their opacity (C72)")
m("overlay",T,"if k = 0 then p else v k","if k = 0 then v k else p","mask inverted","the mask's index where not 0 (C72)")
m("addMask",T,"s.1 ≠ m.1 ∨ s.2.1 ≠ m.2.1 ∨ m","s.1 ≠ m.1 ∨ m","heights not compared","accepts exactly equal sizes (C72)")
m("addMask",T,"m.2.2.rgb.isSome ∨ m.2.2.alpha.isSome then none","m.2.2.rgb.isSome then none","mask may have alpha","mask must have palette layer only (C72)")
m("addMask",T,"[128, 128, 128]","[255, 255, 255]","wrong neutral colour","neutral colour under OVERDRAW (C72)")
m("addMask",T,"if mode = 1 then do","if mode = 0 then do","modes swapped","OVERDRAW semantics (C72)")
m("layers",T,"some (1, 1, ⟨none, none, some [[0]]⟩)","some (1, 1, ⟨none, none, some [[1]]⟩)","empty sprite has a pixel","(C71/C72 empty sprite)")
m("realData",T,"⟨s.attrs.xofs, s.attrs.yofs, s.attrs.zoom, s.attrs.crop⟩","⟨s.attrs.yofs, s.attrs.xofs, s.attrs.zoom, s.attrs.crop⟩","offsets swapped","moved by exactly what was asked (C72)")
m("fingerprint",T,"(\"crop\".toList, .bool a.crop), ","","crop not in the fingerprint","cache invisible (C71)")
m("fingerprint",T,"(\"mode\".toList, .num mode), ","","mask mode not in the fingerprint","cache invisible (C71)")
m("fingerprint",T,"(\"yofs\".toList, .num a.yofs)])\n  | .quantized","(\"yofs\".toList, .num a.xofs)])\n  | .quantized","y offset missing in a moved sprite's fingerprint","cache invisible (C71)")
m("fingerprint",T,"\"QuantizeSprite\".toList","\"MoveSprite\".toList","class name of another class","fingerprints identify sprites (C71)")
m("fingerprint",T,"(\"y\".toList, .num y), ","(\"y\".toList, .num x), ","y missing","cache invisible (C71)")
m("resourceFiles",T,"| .file _ path .. => [this, path, this]","| .file _ path .. => [this, this]","picture's file not listed","changed pictures are drawn again (C71)")
m("resourceFiles",T,"(resourceFiles this s ++ resourceFiles this m)","(resourceFiles this s)","mask's files not listed","changed masks are drawn again (C71)")
m("spriteFingerprint",T,".time (D.changed p)",".time (D.changed this)","times of the wrong file","changed pictures are drawn again (C71)")
m("escape",T,"if c = '\"' then ['\\\\', '\"'] else ","","quotes not escaped","text identifies the value (C71)")
m("dumpsList",T,"| v :: w :: l => dumps v ++ ',' :: dumpsList (w :: l)","| v :: w :: l => dumps v ++ dumpsList (w :: l)","no comma","text identifies the value (C71)")
m("cachedData",T,"| some d => (Cache.set c k d, some d)","| some d => (Cache.set c k (d.take 1), some d)","cut data kept","cache invisible (C71)")
m("cachedData",T,"| none => (c, realData L D s)\n  | some k","| none => (c, some [])\n  | some k","uncacheable sprites empty","cache invisible (C71)")
m("spriteMap",T,"if debug then ⟨fresh o.1, newDebug o.2⟩","if debug then ⟨o.1, newDebug o.2⟩","map keyed by the old sprites (the fix)","debug_zoom_fails states the fault")
I="Info"
m("newGrf",I,"if a.grfid.length ≠ 4 then none\n  else ","","grfid of any length","accepted exactly (C70)")
m("newGrf",I,"b ≠ [0x38] ∧ b ≠ [0x33]","b ≠ [0x38] ∨ b ≠ [0x33]","every blitter refused","accepted exactly (C70)")
m("newGrf",I,"(a.minVersion.map .int)","(a.version.map .int)","version written as the least version","info told (C70)")
m("packLimits",I,"some (a ++ b)","some (b ++ a)","limits swapped","limits told (C70)")
m("paramData",I,"paramHead n d 1 ++","paramHead n d 0 ++","booleans as numbers","types told (C70)")
m("numbered",I,"(.int i, .dict p) :: numbered (i + 1) r","(.int i, .dict p) :: numbered i r","all parameters numbered alike","parameters told in order (C70)")
m("paramEntries",I,"packU 1 ps.length","packU 1 (ps.length - 1)","number of parameters one less","number of parameters told (C70)")
m("descriptionBytes",I,"a.name.default, a.description.default","a.description.default, a.name.default","name and description swapped","description told (C70)")
V="Vox"
m("readSize",V,"some (b.toNat, a.toNat, c.toNat)","some (a.toNat, b.toNat, c.toNat)","sizes not swapped","reads the model (C73)")
m("readRgba",V,"[0, 0, 0, 0] :: rows4 255 f","rows4 255 f ++ [[0, 0, 0, 0]]","colours numbered from 0","first colour is number 1 (C73)")
m("readXyzi",V,"decide (v.i > 0)","decide (v.i ≥ 0)","colour 0 accepted","colour 0 is an error (C73)")
m("setPixel",V,"if old ≥ z then b x y else (some z, c)","if old > z then b x y else (some z, c)","last of equally near voxels wins","first of equally near ones (C73)")
m("setPixel",V,"if old ≥ z then b x y else (some z, c)","if old ≤ z then b x y else (some z, c)","farthest voxel wins","nearest voxel (C73)")
m("faces",V,"(0, 2, 0x200), (1, 2, 0x300)]","(0, 2, 0x200)]","lower half of right walls missing","sides of the voxel (C73)")
m("load",V,"(xmax - xmin + 2).toNat","(xmax - xmin + 1).toNat","frame too narrow","frame holds every cube (C73)")
m("drawVoxel",V,"if colour v.i = 1 then b\n  else ","","voxels of colour 1 drawn","seen voxels (C73)")
m("Voxel.py",V,"v.x + v.y - 2 * v.z","v.x + v.y - v.z","height halved","projection (C73)")
m("sidePixels",V,"| 2 => [(0, 0), (1, 0), (0, 1)","| 2 => [(2, 0), (3, 0), (0, 1)","left wall's upper half on the wrong side","no gaps (C74)")
m("side",V,"then s ^^^ 3 else s\n","then s else s\n","no triangle above a top","no gaps (C74)")
m("side",V,"then s ^^^ 2 else s\n  else s","then s else s\n  else s","no triangle between walls","no gaps (C74)")
m("zoomNormal",V,"p.at_ (2 * y) x","p.at_ (2 * y + 1) x","odd rows","zooms (C74)")
m("house",V,"if zoom = 2 then some (zoom2 pal p) else if zoom = 1 then some (zoom4 pal p)","if zoom = 1 then some (zoom2 pal p) else if zoom = 2 then some (zoom4 pal p)","zooms swapped","zooms (C74)")
W="Watch"
m("step",W,"modified := if delivered dir s f then f :: s.modified else s.modified","modified := s.modified","modifications forgotten","nothing missed (C75)")
m("step",W,"if s.modified ≠ [] ∨ s.list = none then some { s with phase := .noticed } else some s","if s.list = none then some { s with phase := .noticed } else some s","only the first build","modifications lead to a build (C75)")
m("step",W,"some { s with list := some ws, phase := .scheduling ws }","some { s with list := some ws, modified := [], phase := .scheduling ws }","modified reset after the build","nothing missed (C75)")
m("step",W,"| .noticed => some { s with modified := [], looked","| .noticed => some { s with looked","modified not reset","build has a reason (C75)")
m("step",W,"some { s with phase := .noticed } else some s","some { s with phase := .noticed } else some { s with phase := .noticed }","builds all the time","no build without a reason (C75)")
m("delivered",W,"l.contains f && s.dirs.contains (dir f)","s.dirs.contains (dir f)","every file of the directory counts","build has a reason (C75)")
P="Palette"
m("lookup",P,"then some i else r) none","then some (i + 1) else r) none","index off by one","colours kept (C76)")
m("argmin",P,"if x < r.2.1 then","if x ≤ r.2.1 then","last least","first of the nearest (C76)")
m("makeRemap",P,"(List.range 256).drop cs.length","List.replicate (256 - cs.length) 0","unused indices to 0","indices without colour stay (C76)")
m("fix",P,"(⟨flat game, px⟩, (hash p.pal, remap) :: cache)","(⟨flat game, px⟩, (0, remap) :: cache)","one cache entry for all","cache invisible (C76)")
m("quantize",P,"if a < 128 then 0 else v","if a ≤ 128 then 0 else v","boundary of opacity","exactly under 128 (C76)")
m("safe",P,"(List.range 214).map (· + 1) ++ [255]","(List.range 214).map (· + 1) ++ [254]","animated colour as safe","not animated (C76)")
m("adjust",P,"(combined >>> 23) &&& 0x1ff","(combined >>> 23) &&& 0xff","green cut to a byte","exact brightness (C77)")
m("adjust",P,"combined &&& 0x800080008000 = 0","combined &&& 0x800000008000 = 0","green's excess not noticed","exact brightness (C77)")
m("adjust",P,"let ob := ob / 2","let ob := ob","excess not halved","exact brightness (C77)")
m("preview",P,"some ((0, 0, 0), match alpha with | none => 0 | some a => a)","some ((0, 0, 0), match alpha with | none => 255 | some a => a)","index 0 opaque","previews (C77)")
json.dump(M,open('/tmp/gen/m12.json','w'))
print(len(M))
