"""Check the citations of the model: every `src/...rs` A-B `symbol` must have `fn symbol` (or struct, enum) in those lines."""
import re,glob,os
bad=0;n=0
src={f[len('/repo/'):]:open(f).read().split('\n') for f in glob.glob('/repo/src/**/*.rs',recursive=True)}
for f in sorted(glob.glob('/verif/lean/Verif/Model/*.lean')):
    t=open(f).read()
    for m in re.finditer(r'/--(.*?)-/',t,re.S):
        c=m.group(1)
        files=re.findall(r'`(src/[\w/]+\.rs)`',c)
        for k in re.finditer(r'`(src/[\w/]+\.rs)`\s+(\d+)(?:-(\d+))?(?:\s*/\s*\d+-\d+)?\s+`([\w:]+)`',c):
            file,a,b,s=k.groups(); a=int(a); b=int(b or a); n+=1
            name=s.split('::')[-1]
            if file not in src: print(f,file,'no such file'); bad+=1; continue
            body='\n'.join(src[file][a-1:b])
            lno=t[:m.start()].count('\n')+1
            d=[i+1 for i,l in enumerate(src[file]) if re.search(r'\b(fn|struct|enum|trait|for|type)\s+'+re.escape(name)+r'\b',l)]
            if not re.search(r'\b'+re.escape(name)+r'\b',body):
                print(f'{os.path.basename(f)}:{lno}: {file} {a}-{b} {s}; defined at {d}'); bad+=1
            elif d and not any(a-8<=x<=b for x in d): print(f'{os.path.basename(f)}:{lno}: {file} {a}-{b} {s}: mentioned, defined at {d}'); bad+=1
            # closing brace check
            elif d:
                x=[y for y in d if a-8<=y<=b][0]
                ind=len(src[file][x-1])-len(src[file][x-1].lstrip())
                e=x
                if src[file][x-1].rstrip().endswith('}') or src[file][x-1].rstrip().endswith(';'): e=x
                else:
                    while e<len(src[file]) and not (src[file][e-1].startswith(' '*ind+'}')): e+=1
                if e!=b or x<a: print(f'{os.path.basename(f)}:{lno}: {file} {a}-{b} {s}: {x}-{e}')
print(n,'citations',bad,'bad')
