import json,re
ids=[json.loads(l)["id"] for l in open('/verif/properties.jsonl')]
C={}
def c(i,status,thms,note=""): C[i]=(status,["Astra.Props."+t for t in thms.split()],note)
exec(open('/verif/tools/claims.py').read())
out=[]
src=""
import glob
for f in glob.glob('/verif/lean/Verif/**/*.lean',recursive=True): src+=open(f).read()
for i in ids:
    if i in C:
        s,t,n=C[i]
        for x in t:
            if not re.search(r'theorem '+re.escape(x.split('.')[-1])+r'\b',src): print("MISSING",i,x)
        out.append({"property":i,"status":s,"theorems":t,"note":n})
json.dump({"claims":out},open('/verif/MANIFEST.json','w'),indent=1,ensure_ascii=False)
print(len(out),"claims; missing:",[i for i in ids if i not in C])
