import json
M=[]
def m(d,f,o,n,e,b): M.append(dict(**{"def":d},file=f,old=o,new=n,edit=e,breaks=b))
f="Model/IndustryObjs.lean"
m("layoutSwitch",f,"related := true, code","related := false, code","not in the related scope","C91: layout_num is no variable of the tile")
m("layoutSwitch",f,"((i : Int), (i : Int), .obj (ks.getD i 0))","((i : Int) + 1, (i : Int) + 1, .obj (ks.getD i 0))","layouts counted from 1","C91: layout i is chosen by number i")
m("posSwitch",f,"(p.1, p.1, .result p.2)","(p.1, p.1 + 1, .result p.2)","ranges one too long","C91")
m("posSwitch",f,"default := .result 0 }","default := .result 1 }","default 1","C91: tiles without strip show the empty sprite")
m("tileGraphics",f,'("get_sprite_num", num)','("get_sprite", num)',"subroutine under another name","C91: the code calls get_sprite_num")
m("tileGraphics",f,"default := .obj layout }","default := .result 0 }","default is no layout","C91")
m("graphicsCode",f,"TEMP[0] = get","TEMP[1] = get","stores into register 1","C91: the layout adds register 0")
m("graphicsCode",f,"TEMP[0] = get","PERM[0] = get","stores into persistent storage","C91")
m("switchRanges","Model/Industry.lean","pyOr (e.1.2 * 256) e.1.1","pyOr (e.1.1 * 256) e.1.2","x and y swapped","C91, C60")
json.dump(M,open("/tmp/gen/m19.json","w"),indent=1)
